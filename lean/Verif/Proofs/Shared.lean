import Verif.Spec.Shared
import Verif.Props.Buffer
import Verif.Proofs.World

/-! # Buffers over common memory: what each function writes -/

set_option autoImplicit false

namespace RR32

open Spec

/-- `m'` differs from the memory of `b` only inside the first `cap` bytes. -/
structure Local (b : BufferManager) (m' : List Byte) : Prop where
  length : m'.length = b.mem.length
  rest : ∀ x, b.cap ≤ x → m'[x]? = b.mem[x]?

theorem pokeAt_frame {m l m' : List Byte} {off : Nat} (h : pokeAt m off l = .ok m') :
    m'.length = m.length ∧ ∀ x, (x < off ∨ off + l.length ≤ x) → m'[x]? = m[x]? := by
  unfold pokeAt at h
  split at h
  · next hle =>
    cases h
    refine ⟨by simp; omega, ?_⟩
    intro x hx
    rcases hx with hx | hx
    · rw [List.append_assoc, List.getElem?_append_left (by simp; omega), List.getElem?_take_of_lt hx]
    · rw [List.getElem?_append_right (by simp; omega), List.getElem?_drop]
      congr 1
      simp
      omega
  · cases h

theorem poke_frame {m l m' : List Byte} (h : poke m l = .ok m') :
    m'.length = m.length ∧ ∀ x, l.length ≤ x → m'[x]? = m[x]? := by
  unfold poke at h
  split at h
  · next hle =>
    cases h
    refine ⟨by simp; omega, ?_⟩
    intro x hx
    rw [List.getElem?_append_right (by omega), List.getElem?_drop]
    congr 1
    omega
  · cases h

theorem local_erase {b b' : BufferManager} (h : b.erase = .ok b') : Local b b'.mem := by
  unfold BufferManager.erase at h
  obtain ⟨m, h1, h⟩ := bind_ok h
  cases h
  obtain ⟨h2, h3⟩ := pokeAt_frame h1
  exact ⟨h2, fun x hx => h3 x (Or.inr (by simpa using hx))⟩

theorem local_pop {b b' : BufferManager} (hb : BufOk b) {n : Nat} (h : b.pop_front n = .ok b') : Local b b'.mem := by
  unfold BufferManager.pop_front at h
  split at h
  · exact local_erase h
  · next hn =>
    obtain ⟨m1, h1, h⟩ := bind_ok h
    obtain ⟨m2, h2, h⟩ := bind_ok h
    obtain ⟨m3, h3, h⟩ := bind_ok h
    cases h
    have hl : m1.length = b.len - n := by
      unfold peekAt at h1
      split at h1
      · next hle => cases h1; simp at hle ⊢; omega
      · cases h1
    obtain ⟨a1, a2⟩ := pokeAt_frame h2
    obtain ⟨b1, b2⟩ := pokeAt_frame h3
    have := hb.len_le
    have := hb.cap_le
    refine ⟨by rw [b1, a1], ?_⟩
    intro x hx
    rw [b2 x (Or.inr ?_), a2 x (Or.inr ?_)]
    · omega
    · simp only [List.length_replicate, BufferManager.capacity_remaining, u8]
      omega

theorem local_push {b b' o : BufferManager} (hb : BufOk b) {n : Nat} (h : b.push_back o = .ok (b', n)) : Local b b'.mem := by
  unfold BufferManager.push_back at h
  obtain ⟨m1, h1, h⟩ := bind_ok h
  obtain ⟨m2, h2, h⟩ := bind_ok h
  cases h
  have hl : m1.length ≤ b.capacity_remaining := by
    generalize hn : (if b.capacity_remaining < o.len then b.capacity_remaining else o.len) = n at h1
    have : n ≤ b.capacity_remaining := by rw [← hn]; split <;> omega
    unfold peekAt at h1
    split at h1
    · cases h1
      simp
      omega
    · cases h1
  have := hb.len_le
  have := hb.cap_le
  obtain ⟨a1, a2⟩ := pokeAt_frame h2
  refine ⟨a1, fun x hx => a2 x (Or.inr ?_)⟩
  simp only [BufferManager.capacity_remaining, u8] at hl
  omega

theorem local_char {b b' : BufferManager} {c : Byte} {n : Nat} (h : b.push_back_char c = .ok (b', n)) : Local b b'.mem := by
  unfold BufferManager.push_back_char at h
  split at h
  · next hlt =>
    obtain ⟨m1, h1, h⟩ := bind_ok h
    cases h
    obtain ⟨a1, a2⟩ := pokeAt_frame h1
    exact ⟨a1, fun x hx => a2 x (Or.inr (by simp; omega))⟩
  · cases h
    exact ⟨rfl, fun _ _ => rfl⟩

theorem strncpyBytes_length {n : Nat} {src l : List Byte} (h : strncpyBytes n src = .ok l) : l.length = n := by
  induction n generalizing src l with
  | zero => cases h; rfl
  | succ n ih =>
    cases src with
    | nil => cases h
    | cons c cs =>
      rw [strncpyBytes] at h
      split at h
      · cases h; simp
      · obtain ⟨r, h1, h⟩ := bind_ok h
        cases h
        simp [ih h1]

theorem local_set {b b' : BufferManager} {t : List Byte} (h : b.set t = .ok b') : Local b b'.mem := by
  unfold BufferManager.set at h
  obtain ⟨e, h1, h⟩ := bind_ok h
  have hl := local_erase h1
  have hcap : e.cap = b.cap := by
    unfold BufferManager.erase at h1
    obtain ⟨_, _, h1⟩ := bind_ok h1
    cases h1; rfl
  split at h
  · cases h
  · next hne =>
    obtain ⟨m, h2, h⟩ := bind_ok h
    obtain ⟨n, h3, h⟩ := bind_ok h
    cases h
    unfold strncpy at h2
    obtain ⟨l, h4, h2⟩ := bind_ok h2
    obtain ⟨a1, a2⟩ := poke_frame h2
    have := strncpyBytes_length h4
    exact ⟨by rw [a1, hl.length], fun x hx => by rw [a2 x (by omega), hl.rest x hx]⟩

theorem local_write {b b' : BufferManager} (hb : BufOk b) (hne : 0 < b.len) {k : Nat} {c : Byte} (h : b.setAt k c = .ok b') : Local b b'.mem := by
  unfold BufferManager.setAt at h
  obtain ⟨m, h1, h⟩ := bind_ok h
  cases h
  obtain ⟨a1, a2⟩ := pokeAt_frame h1
  have := hb.len_le
  have := hb.cap_le
  refine ⟨a1, fun x hx => a2 x (Or.inr ?_)⟩
  simp only [BufferManager.limitIndex, u8, List.length_singleton]
  split <;> omega

namespace Shared

theorem bufOk {s : Shared} {i : Nat} (h : Fits s.heap (s.mgr i)) : BufOk (s.buf i) :=
  ⟨h.len_le, h.cap_le, by have := h.inside; simp only [buf, Mgr.look, List.length_drop]; omega⟩

theorem look_ok {heap : Nat → List Byte} {m : Mgr} (h : Fits heap m) : BufOk (m.look heap) :=
  ⟨h.len_le, h.cap_le, by have := h.inside; simp only [Mgr.look, List.length_drop]; omega⟩

theorem content_buf (s : Shared) (i : Nat) : content (s.buf i) = shows s i := rfl

/-- Only the window of `i` is written. -/
theorem put_bytes {s : Shared} {i : Nat} {b : BufferManager} (h : Fits s.heap (s.mgr i)) (hl : Local (s.buf i) b.mem) (o : Nat) :
    ((s.put i b).heap o).length = (s.heap o).length ∧ ∀ x, ¬InWindow (s.mgr i) o x → ((s.put i b).heap o)[x]? = (s.heap o)[x]? := by
  have h3 := h.inside
  have hm : (s.buf i).mem = (s.heap (s.mgr i).obj).drop (s.mgr i).off := rfl
  by_cases ho : o = (s.mgr i).obj
  · subst ho
    simp only [put, if_pos]
    have hlen := hl.length
    rw [hm, List.length_drop] at hlen
    refine ⟨by simp; omega, ?_⟩
    intro x hx
    by_cases hxo : x < (s.mgr i).off
    · rw [List.getElem?_append_left (by simp; omega), List.getElem?_take_of_lt hxo]
    · have hge : (s.mgr i).off + (s.mgr i).cap ≤ x := by
        apply Nat.le_of_not_lt
        intro hlt
        exact hx ⟨rfl, by omega, hlt⟩
      rw [List.getElem?_append_right (by simp; omega)]
      have := hl.rest (x - (s.mgr i).off) (by show (s.mgr i).cap ≤ _; omega)
      rw [hm, List.getElem?_drop] at this
      rw [show x - (List.take (s.mgr i).off (s.heap (s.mgr i).obj)).length = x - (s.mgr i).off by simp; omega, this]
      congr 1
      omega
  · simp only [put, if_neg ho]
    exact ⟨trivial, fun _ _ => trivial⟩

theorem put_mgr (s : Shared) (i k : Nat) (b : BufferManager) :
    ((s.put i b).mgr k).obj = (s.mgr k).obj ∧ ((s.put i b).mgr k).off = (s.mgr k).off ∧ ((s.put i b).mgr k).cap = (s.mgr k).cap := by
  simp only [put]
  split
  · next h => subst h; exact ⟨rfl, rfl, rfl⟩
  · exact ⟨rfl, rfl, rfl⟩

theorem put_other (s : Shared) (i k : Nat) (b : BufferManager) (h : k ≠ i) : (s.put i b).mgr k = s.mgr k := if_neg h

theorem put_buf {s : Shared} {i : Nat} {b : BufferManager} (h : Fits s.heap (s.mgr i)) (hc : b.cap = (s.mgr i).cap) : (s.put i b).buf i = b := by
  have h3 := h.inside
  simp only [buf, Mgr.look, put, if_pos]
  rw [List.drop_left' (by simp; omega), ← hc]

theorem put_fits {s : Shared} {i : Nat} {b : BufferManager} (h : ∀ k, Fits s.heap (s.mgr k)) (hl : Local (s.buf i) b.mem) (hb : BufOk b)
    (hc : b.cap = (s.mgr i).cap) (k : Nat) : Fits (s.put i b).heap ((s.put i b).mgr k) := by
  obtain ⟨e1, e2, e3⟩ := put_mgr s i k b
  refine ⟨?_, ?_, ?_⟩
  · by_cases hk : k = i
    · subst hk
      simp only [put, if_pos]
      have := hb.len_le
      omega
    · rw [put_other s i k b hk]; exact (h k).len_le
  · rw [e3]; exact (h k).cap_le
  · rw [e1, e2, e3, (put_bytes (h i) hl _).1]; exact (h k).inside

/-- Managers whose window is untouched show what they showed. -/
theorem shows_congr {s t : Shared} {k : Nat} (h : Fits s.heap (s.mgr k)) (hm : t.mgr k = s.mgr k)
    (hb : ∀ o x, InWindow (s.mgr k) o x → (t.heap o)[x]? = (s.heap o)[x]?) : shows t k = shows s k := by
  unfold shows
  rw [hm]
  apply List.ext_getElem?
  intro x
  have := h.len_le
  by_cases hx : x < (s.mgr k).len
  · rw [List.getElem?_take_of_lt hx, List.getElem?_take_of_lt hx, List.getElem?_drop, List.getElem?_drop]
    exact hb _ _ ⟨rfl, by omega, by omega⟩
  · rw [List.getElem?_take, List.getElem?_take, if_neg hx, if_neg hx]

theorem sub_look (m : Mgr) (heap : Nat → List Byte) (start stop : Nat) : (m.sub start stop).look heap = (m.look heap).subBufferManager start stop := by
  simp only [Mgr.sub, Mgr.look, BufferManager.subBufferManager, List.drop_drop]
  rfl

theorem sub_fits {heap : Nat → List Byte} {m : Mgr} (h : Fits heap m) (start stop : Nat) : Fits heap (m.sub start stop) := by
  obtain ⟨h1, h2, h3⟩ := h
  refine ⟨?_, ?_, ?_⟩ <;> simp only [Mgr.sub, u8]
  · repeat' split
    all_goals omega
  · split <;> omega
  · split <;> omega

theorem copied_eq {s : Shared} {i : Nat} (h : Fits s.heap (s.mgr i)) (m : Mgr) :
    (if (s.buf i).capacity_remaining < m.len then (s.buf i).capacity_remaining else m.len) = min ((s.mgr i).cap - (s.mgr i).len) m.len := by
  have h1 := h.len_le
  have h2 := h.cap_le
  have h3 : (s.buf i).capacity_remaining = (s.mgr i).cap - (s.mgr i).len := by
    simp only [BufferManager.capacity_remaining, buf, Mgr.look, u8]
    omega
  rw [h3]
  split <;> omega

theorem overlapping_iff (m o : Mgr) :
    overlapping m.obj (m.off + m.len) (min (m.cap - m.len) o.len) o.obj o.off (min (m.cap - m.len) o.len) = true ↔ Clash m o := by
  unfold overlapping Clash
  simp only [Bool.and_eq_true, decide_eq_true_eq]
  constructor
  · rintro ⟨⟨⟨⟨e, p1⟩, p2⟩, p3⟩, p4⟩
    refine ⟨e, max (m.off + m.len) o.off, ?_, ?_, ?_, ?_⟩ <;> omega
  · rintro ⟨e, x, p1, p2, p3, p4⟩
    refine ⟨⟨⟨⟨e, ?_⟩, ?_⟩, ?_⟩, ?_⟩ <;> omega

/-- Appending. -/
theorem pushFrom_ok {s : Shared} {i : Nat} {m : Mgr} (h : Fits s.heap (s.mgr i)) (hm : Fits s.heap m) (hc : ¬Clash (s.mgr i) m) :
    ∃ b, s.pushFrom i m = .ok (s.put i b, min ((s.mgr i).cap - (shows s i).length) (content (m.look s.heap)).length) ∧
      Goes (s.buf i) b (shows s i ++ (content (m.look s.heap)).take ((s.mgr i).cap - (shows s i).length)) ∧ Local (s.buf i) b.mem := by
  have ho := look_ok hm
  obtain ⟨b, hb, hg⟩ := C25_append (s.buf i) (m.look s.heap) (bufOk h) (Nat.le_trans ho.len_le ho.mem_le)
  refine ⟨b, ?_, hg, local_push (bufOk h) hb⟩
  have hf : overlapping (s.mgr i).obj ((s.mgr i).off + (s.buf i).len) (min ((s.mgr i).cap - (s.mgr i).len) m.len) m.obj m.off
      (min ((s.mgr i).cap - (s.mgr i).len) m.len) = false := eq_false_of_ne_true (fun hh => hc ((overlapping_iff _ _).mp hh))
  unfold pushFrom
  simp only [copied_eq h m, hf, Bool.false_eq_true, ↓reduceIte, hb]
  rfl

theorem pushFrom_clash {s : Shared} {i : Nat} {m : Mgr} (h : Fits s.heap (s.mgr i)) (hc : Clash (s.mgr i) m) :
    s.pushFrom i m = .error .overlap := by
  have hf : overlapping (s.mgr i).obj ((s.mgr i).off + (s.buf i).len) (min ((s.mgr i).cap - (s.mgr i).len) m.len) m.obj m.off
      (min ((s.mgr i).cap - (s.mgr i).len) m.len) = true := (overlapping_iff _ _).mpr hc
  unfold pushFrom
  simp only [copied_eq h m, hf, ↓reduceIte]

/-- Dropping. -/
theorem popAt_ok {s : Shared} {i : Nat} (n : Nat) (h : Fits s.heap (s.mgr i)) :
    ∃ b, s.popAt i n = .ok (s.put i b) ∧ Goes (s.buf i) b ((shows s i).drop n) ∧ Local (s.buf i) b.mem := by
  obtain ⟨b, hb, hg, -⟩ := C25_pop (s.buf i) (bufOk h) n
  refine ⟨b, ?_, hg, local_pop (bufOk h) hb⟩
  unfold popAt
  rw [hb]
  rfl

end Shared

end RR32
