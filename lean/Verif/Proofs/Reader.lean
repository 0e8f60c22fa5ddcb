import Verif.Spec.Text

/-! # The reader, one token at a time -/

set_option autoImplicit false

namespace RR32

namespace Spec.Reader

/-- Nothing read is too long. -/
structure Fits (s : Reader) : Prop where
  sect : s.sect.length ≤ maxSection
  key : s.key.length ≤ maxKey
  value : s.value.length ≤ maxValue

theorem fits_start : Fits start := ⟨by decide, by decide, by decide⟩

theorem fits_failed : Fits failed := ⟨by decide, by decide, by decide⟩

theorem bytes_append (s : Reader) (a b : List Byte) :
    s.bytes (a ++ b) = (((s.bytes a).1.bytes b).1, (s.bytes a).2 ++ ((s.bytes a).1.bytes b).2) := by
  induction a generalizing s with
  | nil => simp [bytes]
  | cons x a ih => simp [bytes, ih]

theorem bytes_cons (s : Reader) (b : Byte) (l : List Byte) :
    s.bytes (b :: l) = (((s.byte b).1.bytes l).1, (s.byte b).2 ++ ((s.byte b).1.bytes l).2) := rfl

theorem bytes_error (s : Reader) (h : s.mode = .error) (l : List Byte) : s.bytes l = (s, []) := by
  induction l with
  | nil => rfl
  | cons x l ih =>
    have e : s.byte x = (s, []) := by simp [byte, h]
    simp [bytes, e, ih]

theorem bytes_failed (l : List Byte) : failed.bytes l = (failed, []) := bytes_error _ rfl l

theorem bytes_filler (s : Reader) (h : s.mode = .look) (l : List Byte) (hl : IsFiller l) : s.bytes l = (s, []) := by
  induction l with
  | nil => rfl
  | cons x l ih =>
    have hx := hl x (List.mem_cons_self ..)
    have e : s.byte x = (s, []) := by simp [byte, h, hx.1, hx.2]
    simp [bytes, e, ih (fun b hb => hl b (List.mem_cons_of_mem _ hb))]

theorem bytes_name (s : Reader) (h : s.mode = .sect) (hs : s.sect.length ≤ maxSection) (l : List Byte) (hl : IsName l) :
    s.bytes l = if s.sect.length + l.length ≤ maxSection then ({ s with sect := s.sect ++ l }, []) else (failed, [Entry.error]) := by
  induction l generalizing s with
  | nil => simp [bytes, hs]
  | cons x l ih =>
    have hx := hl x (List.mem_cons_self ..)
    have hl' : IsName l := fun b hb => hl b (List.mem_cons_of_mem _ hb)
    rw [bytes_cons]
    by_cases hf : s.sect.length < maxSection
    · have e : s.byte x = ({ s with sect := s.sect ++ [x] }, []) := by simp [byte, h, hx, hf]
      have i := ih { s with sect := s.sect ++ [x] } h (by simp; omega) hl'
      simp only [e, i, List.length_append, List.length_cons, List.length_nil, Nat.zero_add]
      by_cases hc : s.sect.length + (l.length + 1) ≤ maxSection
      · rw [if_pos (by omega), if_pos (by omega)]
        simp
      · rw [if_neg (by omega), if_neg (by omega)]
        simp
    · have e : s.byte x = (failed, [Entry.error]) := by simp [byte, h, hx, hf]
      rw [e, bytes_failed, if_neg (by simp; omega)]
      simp

theorem bytes_key (s : Reader) (h : s.mode = .key) (hs : s.key.length ≤ maxKey) (l : List Byte) (hl : IsKey l) :
    s.bytes l = if s.key.length + l.length ≤ maxKey then ({ s with key := s.key ++ l }, []) else (failed, [Entry.error]) := by
  induction l generalizing s with
  | nil => simp [bytes, hs]
  | cons x l ih =>
    have hx := hl x (List.mem_cons_self ..)
    have hl' : IsKey l := fun b hb => hl b (List.mem_cons_of_mem _ hb)
    rw [bytes_cons]
    by_cases hf : s.key.length < maxKey
    · have e : s.byte x = ({ s with key := s.key ++ [x] }, []) := by simp [byte, h, hx.1, hx.2, hf]
      have i := ih { s with key := s.key ++ [x] } h (by simp; omega) hl'
      simp only [e, i, List.length_append, List.length_cons, List.length_nil, Nat.zero_add]
      by_cases hc : s.key.length + (l.length + 1) ≤ maxKey
      · rw [if_pos (by omega), if_pos (by omega)]
        simp
      · rw [if_neg (by omega), if_neg (by omega)]
        simp
    · have e : s.byte x = (failed, [Entry.error]) := by simp [byte, h, hx.1, hx.2, hf]
      rw [e, bytes_failed, if_neg (by simp; omega)]
      simp

theorem bytes_value (s : Reader) (h : s.mode = .value) (hs : s.value.length ≤ maxValue) (l : List Byte) (hl : IsValue l) :
    s.bytes l = if s.value.length + l.length ≤ maxValue then ({ s with value := s.value ++ l }, []) else (failed, [Entry.error]) := by
  induction l generalizing s with
  | nil => simp [bytes, hs]
  | cons x l ih =>
    have hx := hl x (List.mem_cons_self ..)
    have hl' : IsValue l := fun b hb => hl b (List.mem_cons_of_mem _ hb)
    rw [bytes_cons]
    by_cases hf : s.value.length < maxValue
    · have e : s.byte x = ({ s with value := s.value ++ [x] }, []) := by simp [byte, h, hx, hf]
      have i := ih { s with value := s.value ++ [x] } h (by simp; omega) hl'
      simp only [e, i, List.length_append, List.length_cons, List.length_nil, Nat.zero_add]
      by_cases hc : s.value.length + (l.length + 1) ≤ maxValue
      · rw [if_pos (by omega), if_pos (by omega)]
        simp
      · rw [if_neg (by omega), if_neg (by omega)]
        simp
    · have e : s.byte x = (failed, [Entry.error]) := by simp [byte, h, hx, hf]
      rw [e, bytes_failed, if_neg (by simp; omega)]
      simp

theorem fits_byte (s : Reader) (h : s.Fits) (b : Byte) : (s.byte b).1.Fits := by
  obtain ⟨h1, h2, h3⟩ := h
  unfold byte
  split
  · split
    · exact ⟨by simp, h2, h3⟩
    · split
      · exact ⟨h1, h2, h3⟩
      · exact ⟨h1, h2, h3⟩
  · split
    · exact ⟨h1, h2, h3⟩
    · split
      · exact ⟨by simp; omega, h2, h3⟩
      · exact fits_failed
  · split
    · exact ⟨h1, h2, h3⟩
    · split
      · exact ⟨h1, by simp, by simp⟩
      · split
        · exact ⟨h1, by simp; omega, h3⟩
        · exact fits_failed
  · split
    · exact ⟨h1, by simp, by simp⟩
    · split
      · exact ⟨h1, h2, by simp; omega⟩
      · exact fits_failed
  · exact ⟨h1, h2, h3⟩

theorem fits_bytes (s : Reader) (h : s.Fits) (l : List Byte) : (s.bytes l).1.Fits := by
  induction l generalizing s with
  | nil => exact h
  | cons b l ih => exact ih _ (fits_byte s h b)

theorem fits_chunk (s : Reader) (h : s.Fits) (l : List Byte) : (s.chunk l).1.Fits := by
  unfold chunk
  split
  · exact fits_failed
  · exact fits_bytes s h l

/-- A reader that gave up is the failed reader, if it was not put there by hand. -/
def Honest (s : Reader) : Prop := s.mode = .error → s = failed

theorem honest_byte (s : Reader) (h : s.Honest) (b : Byte) : (s.byte b).1.Honest := by
  unfold byte
  repeat' split
  all_goals first
    | exact h
    | (intro e; first | rfl | (simp_all))

theorem honest_bytes (s : Reader) (h : s.Honest) (l : List Byte) : (s.bytes l).1.Honest := by
  induction l generalizing s with
  | nil => exact h
  | cons b l ih => exact ih _ (honest_byte s h b)

theorem honest_chunk (s : Reader) (h : s.Honest) (l : List Byte) : (s.chunk l).1.Honest := by
  unfold chunk
  split
  · intro _; rfl
  · exact honest_bytes s h l

end Spec.Reader

end RR32
