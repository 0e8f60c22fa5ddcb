import Verif.Proofs.Reader

/-! # The reader and documents -/

set_option autoImplicit false

namespace RR32

namespace Spec

/-- Ready for the next line. -/
def Reader.ready (sect : List Byte) : Reader := { mode := .look, sect := sect, key := [], value := [] }

open Reader

theorem byte_section (s : Reader) (h : s.mode = .look) : s.byte (ch '[') = ({ s with mode := .sect, sect := [] }, []) := by
  simp [byte, h]

theorem byte_dot (s : Reader) (h : s.mode = .look) : s.byte (ch '.') = ({ s with mode := .key }, []) := by
  have : ¬ch '.' = ch '[' := by decide
  simp [byte, h, this]

theorem byte_close (s : Reader) (h : s.mode = .sect) : s.byte (ch ']') = ({ s with mode := .look }, []) := by
  simp [byte, h]

theorem byte_equals (s : Reader) (h : s.mode = .key) : s.byte (ch '=') = ({ s with mode := .value }, []) := by
  simp [byte, h]

theorem byte_key_end (s : Reader) (h : s.mode = .key) :
    s.byte (ch '\n') = ({ s with mode := .look, key := [], value := [] }, [{ sect := s.sect, key := s.key, value := [] }]) := by
  have : ¬ch '\n' = ch '=' := by decide
  simp [byte, h, this]

theorem byte_value_end (s : Reader) (h : s.mode = .value) :
    s.byte (ch '\n') = ({ s with mode := .look, key := [], value := [] }, [{ sect := s.sect, key := s.key, value := s.value }]) := by
  simp [byte, h]

/-- What the reader is after the beginning of a section line. -/
theorem ready_section (cur f n : List Byte) (hf : IsFiller f) (hn : IsName n) :
    (ready cur).bytes (f ++ ch '[' :: n) =
      if n.length ≤ maxSection then ({ mode := .sect, sect := n, key := [], value := [] }, []) else (failed, [Entry.error]) := by
  rw [bytes_append, bytes_filler _ rfl f hf, bytes_cons, byte_section _ rfl]
  have := bytes_name { ready cur with mode := .sect, sect := [] } rfl (by simp) n hn
  simp only [this, List.length_nil, Nat.zero_add, List.nil_append]
  split <;> rfl

theorem ready_key (cur f k : List Byte) (hf : IsFiller f) (hk : IsKey k) :
    (ready cur).bytes (f ++ ch '.' :: k) =
      if k.length ≤ maxKey then ({ mode := .key, sect := cur, key := k, value := [] }, []) else (failed, [Entry.error]) := by
  rw [bytes_append, bytes_filler _ rfl f hf, bytes_cons, byte_dot _ rfl]
  have := bytes_key { ready cur with mode := .key } rfl (by simp [ready]) k hk
  simp only [this]
  simp only [ready, List.length_nil, Nat.zero_add, List.nil_append]

theorem ready_value (cur f k v : List Byte) (hf : IsFiller f) (hk : IsKey k) (hv : IsValue v) :
    (ready cur).bytes (f ++ ch '.' :: k ++ ch '=' :: v) =
      if k.length ≤ maxKey ∧ v.length ≤ maxValue then ({ mode := .value, sect := cur, key := k, value := v }, [])
      else (failed, [Entry.error]) := by
  rw [bytes_append, ready_key cur f k hf hk]
  by_cases h1 : k.length ≤ maxKey
  · simp only [if_pos h1, bytes_cons]
    rw [byte_equals _ rfl]
    have := bytes_value { mode := .value, sect := cur, key := k, value := [] } rfl (by simp) v hv
    simp only [this, List.length_nil, Nat.zero_add, List.nil_append]
    by_cases h2 : v.length ≤ maxValue
    · rw [if_pos h2, if_pos ⟨h1, h2⟩]
    · rw [if_neg h2, if_neg (fun h => h2 h.2)]
  · simp only [if_neg h1, bytes_failed, List.append_nil]
    rw [if_neg (fun h => h1 h.1)]

/-- A line that fits. -/
theorem ready_item (cur : List Byte) (i : Item) (hw : i.WellFormed) (hf : i.Fits) :
    (ready cur).bytes i.render = (ready (i.sectionAfter cur), i.entries cur) := by
  cases i with
  | «section» f n =>
    rw [Item.render, bytes_append, ready_section cur f n hw.1 hw.2, if_pos (show n.length ≤ maxSection from hf), bytes_cons, byte_close _ rfl]
    rfl
  | entry f k v =>
    rw [Item.render, bytes_append, ready_value cur f k v hw.1 hw.2.1 hw.2.2, if_pos (show k.length ≤ maxKey ∧ v.length ≤ maxValue from hf), bytes_cons, byte_value_end _ rfl]
    rfl
  | flag f k =>
    rw [Item.render, bytes_append, ready_key cur f k hw.1 hw.2, if_pos (show k.length ≤ maxKey from hf), bytes_cons, byte_key_end _ rfl]
    rfl

/-- A line that does not fit. -/
theorem ready_item_bad (cur : List Byte) (i : Item) (hw : i.WellFormed) (hf : ¬i.Fits) :
    (ready cur).bytes i.render = (failed, [Entry.error]) := by
  cases i with
  | «section» f n =>
    rw [Item.render, bytes_append, ready_section cur f n hw.1 hw.2, if_neg (show ¬(n.length ≤ maxSection) from hf), bytes_failed]
    rfl
  | entry f k v =>
    rw [Item.render, bytes_append, ready_value cur f k v hw.1 hw.2.1 hw.2.2, if_neg (show ¬(k.length ≤ maxKey ∧ v.length ≤ maxValue) from hf), bytes_failed]
    rfl
  | flag f k =>
    rw [Item.render, bytes_append, ready_key cur f k hw.1 hw.2, if_neg (show ¬(k.length ≤ maxKey) from hf), bytes_failed]
    rfl

/-- A document that fits. -/
theorem ready_render (cur : List Byte) (items : List Item) (hw : ∀ i ∈ items, i.WellFormed) (hf : ∀ i ∈ items, i.Fits) :
    (ready cur).bytes (render items) = (ready (sectionOf cur items), entriesOf cur items) := by
  induction items generalizing cur with
  | nil => rfl
  | cons i is ih =>
    have h := ih (i.sectionAfter cur) (fun j hj => hw j (List.mem_cons_of_mem _ hj)) (fun j hj => hf j (List.mem_cons_of_mem _ hj))
    rw [render, List.flatMap_cons, bytes_append, ready_item cur i (hw i (List.mem_cons_self ..)) (hf i (List.mem_cons_self ..))]
    rw [render] at h
    simp only [h]
    rfl

/-- A document with a line that does not fit. -/
theorem ready_render_bad (cur : List Byte) (good : List Item) (bad : Item) (rest : List Byte) (hw : ∀ i ∈ good, i.WellFormed)
    (hf : ∀ i ∈ good, i.Fits) (hb : bad.WellFormed) (hnb : ¬bad.Fits) :
    (ready cur).bytes (render good ++ (bad.render ++ rest)) = (failed, entriesOf cur good ++ [Entry.error]) := by
  rw [bytes_append, ready_render cur good hw hf, bytes_append]
  simp only [ready_item_bad _ bad hb hnb, bytes_failed, List.append_nil]

/-- The reader after a tail that fits. -/
def Tail.reader (cur : List Byte) : Tail → Reader
  | .filler _ => ready cur
  | .inSection _ n => { mode := .sect, sect := n, key := [], value := [] }
  | .inKey _ k => { mode := .key, sect := cur, key := k, value := [] }
  | .inValue _ k v => { mode := .value, sect := cur, key := k, value := v }

theorem ready_tail (cur : List Byte) (t : Tail) (hw : t.WellFormed) (hf : t.Fits) : (ready cur).bytes t.render = (t.reader cur, []) := by
  cases t with
  | filler f => exact bytes_filler _ rfl f hw
  | inSection f n => rw [Tail.render, ready_section cur f n hw.1 hw.2, if_pos (show n.length ≤ maxSection from hf)]; rfl
  | inKey f k => rw [Tail.render, ready_key cur f k hw.1 hw.2, if_pos (show k.length ≤ maxKey from hf)]; rfl
  | inValue f k v => rw [Tail.render, ready_value cur f k v hw.1 hw.2.1 hw.2.2, if_pos (show k.length ≤ maxKey ∧ v.length ≤ maxValue from hf)]; rfl

theorem ready_tail_bad (cur : List Byte) (t : Tail) (hw : t.WellFormed) (hf : ¬t.Fits) :
    (ready cur).bytes t.render = (failed, [Entry.error]) := by
  cases t with
  | filler f => exact absurd trivial hf
  | inSection f n => rw [Tail.render, ready_section cur f n hw.1 hw.2, if_neg (show ¬(n.length ≤ maxSection) from hf)]
  | inKey f k => rw [Tail.render, ready_key cur f k hw.1 hw.2, if_neg (show ¬(k.length ≤ maxKey) from hf)]
  | inValue f k v => rw [Tail.render, ready_value cur f k v hw.1 hw.2.1 hw.2.2, if_neg (show ¬(k.length ≤ maxKey ∧ v.length ≤ maxValue) from hf)]

/-- Cutting at the first byte with a property. -/
theorem cut (p : Byte → Prop) [DecidablePred p] (l : List Byte) :
    (∀ b ∈ l, ¬p b) ∨ ∃ a c r, l = a ++ c :: r ∧ (∀ b ∈ a, ¬p b) ∧ p c := by
  induction l with
  | nil => exact Or.inl (by simp)
  | cons x l ih =>
    by_cases hx : p x
    · exact Or.inr ⟨[], x, l, rfl, by simp, hx⟩
    · rcases ih with h | ⟨a, c, r, e, h1, h2⟩
      · left
        intro b hb
        rcases List.mem_cons.mp hb with h' | h'
        · rw [h']; exact hx
        · exact h b h'
      · right
        refine ⟨x :: a, c, r, by rw [e]; rfl, ?_, h2⟩
        intro b hb
        rcases List.mem_cons.mp hb with h' | h'
        · rw [h']; exact hx
        · exact h1 b h'

/-- Every byte sequence is a document with a tail. -/
theorem decompose (l : List Byte) :
    ∃ items tail, l = render items ++ Tail.render tail ∧ (∀ i ∈ items, i.WellFormed) ∧ tail.WellFormed := by
  have key : ∀ n (l : List Byte), l.length ≤ n →
      ∃ items tail, l = render items ++ Tail.render tail ∧ (∀ i ∈ items, i.WellFormed) ∧ tail.WellFormed := by
    intro n
    induction n with
    | zero =>
      intro l hl
      have : l = [] := List.length_eq_zero_iff.mp (by omega)
      subst this
      exact ⟨[], .filler [], rfl, by simp, by intro b hb; cases hb⟩
    | succ n ih =>
      intro l hl
      have extend : ∀ (i : Item) (r : List Byte), l = i.render ++ r → i.WellFormed → 0 < i.render.length →
          ∃ items tail, l = render items ++ Tail.render tail ∧ (∀ i ∈ items, i.WellFormed) ∧ tail.WellFormed := by
        intro i r e hi hp
        obtain ⟨items, tail, h1, h2, h3⟩ := ih r (by rw [e, List.length_append] at hl; omega)
        refine ⟨i :: items, tail, ?_, ?_, h3⟩
        · rw [e, h1]; simp [render]
        · intro j hj
          rcases List.mem_cons.mp hj with h | h
          · rw [h]; exact hi
          · exact h2 j h
      rcases cut (fun b => b = ch '.' ∨ b = ch '[') l with h | ⟨f, c, r, e, hf, hc⟩
      · exact ⟨[], .filler l, rfl, by simp, fun b hb => ⟨fun e => h b hb (Or.inl e), fun e => h b hb (Or.inr e)⟩⟩
      · have hfil : IsFiller f := fun b hb => ⟨fun e => hf b hb (Or.inl e), fun e => hf b hb (Or.inr e)⟩
        rcases hc with hc | hc
        · subst hc
          rcases cut (fun b => b = ch '=' ∨ b = ch '\n') r with h | ⟨k, c, r2, e2, hk, hc⟩
          · exact ⟨[], .inKey f r, e, by simp, hfil, fun b hb => ⟨fun e => h b hb (Or.inl e), fun e => h b hb (Or.inr e)⟩⟩
          · have hkey : IsKey k := fun b hb => ⟨fun e => hk b hb (Or.inl e), fun e => hk b hb (Or.inr e)⟩
            rcases hc with hc | hc
            · subst hc
              rcases cut (fun b => b = ch '\n') r2 with h | ⟨v, c, r3, e3, hv, hc⟩
              · exact ⟨[], .inValue f k r2, by rw [e, e2]; simp [render, Tail.render], by simp, hfil, hkey, h⟩
              · subst hc
                exact extend (.entry f k v) r3 (by rw [e, e2, e3]; simp [Item.render]) ⟨hfil, hkey, hv⟩ (by simp [Item.render]; omega)
            · subst hc
              exact extend (.flag f k) r2 (by rw [e, e2]; simp [Item.render]) ⟨hfil, hkey⟩ (by simp [Item.render]; omega)
        · subst hc
          rcases cut (fun b => b = ch ']') r with h | ⟨nm, c, r2, e2, hn, hc⟩
          · exact ⟨[], .inSection f r, e, by simp, hfil, h⟩
          · subst hc
            exact extend (.section f nm) r2 (by rw [e, e2]; simp [Item.render]) ⟨hfil, hn⟩ (by simp [Item.render]; omega)
  exact key l.length l (Nat.le_refl _)

/-! ## Clean tokens -/

/-- No token contains what ends it. -/
structure Reader.Clean (s : Reader) : Prop where
  sect : IsName s.sect
  key : IsKey s.key
  value : IsValue s.value

/-- A clean entry of legal size. -/
structure Entry.Clean (e : Entry) : Prop where
  sect : IsName e.sect
  key : IsKey e.key
  value : IsValue e.value
  sect_le : e.sect.length ≤ maxSection
  key_le : e.key.length ≤ maxKey
  value_le : e.value.length ≤ maxValue

theorem clean_error_text : IsName (str "ERROR") ∧ IsKey (str "ERROR") ∧ IsValue (str "ERROR") := by
  refine ⟨?_, ?_, ?_⟩
  · have h : ∀ b ∈ str "ERROR", b ≠ ch ']' := by decide
    exact h
  · have h : ∀ b ∈ str "ERROR", b ≠ ch '=' ∧ b ≠ ch '\n' := by decide
    exact h
  · have h : ∀ b ∈ str "ERROR", b ≠ ch '\n' := by decide
    exact h

theorem clean_failed : Reader.failed.Clean := ⟨clean_error_text.1, clean_error_text.2.1, clean_error_text.2.2⟩

theorem clean_start : Reader.start.Clean := ⟨(by intro b hb; cases hb), (by intro b hb; cases hb), (by intro b hb; cases hb)⟩

theorem clean_entry_error : Entry.error.Clean :=
  ⟨clean_error_text.1, clean_error_text.2.1, clean_error_text.2.2, by decide, by decide, by decide⟩

private theorem mem_snoc {P : Byte → Prop} {l : List Byte} {x : Byte} (h : ∀ b ∈ l, P b) (hx : P x) : ∀ b ∈ l ++ [x], P b := by
  intro b hb
  rcases List.mem_append.mp hb with h' | h'
  · exact h b h'
  · rw [List.mem_singleton.mp h']; exact hx

private theorem nil_ok {P : Byte → Prop} : ∀ b ∈ ([] : List Byte), P b := by intro b hb; cases hb

theorem clean_byte (s : Reader) (h : s.Clean) (hf : s.Fits) (b : Byte) : (s.byte b).1.Clean ∧ ∀ e ∈ (s.byte b).2, e.Clean := by
  obtain ⟨h1, h2, h3⟩ := h
  obtain ⟨f1, f2, f3⟩ := hf
  have fail : Reader.failed.Clean ∧ ∀ e ∈ [Entry.error], e.Clean :=
    ⟨clean_failed, by intro e he; rw [List.mem_singleton.mp he]; exact clean_entry_error⟩
  have none : ∀ {q : Reader}, q.Clean → q.Clean ∧ ∀ e ∈ ([] : List Entry), e.Clean := fun h => ⟨h, by intro e he; cases he⟩
  unfold byte
  split
  · split
    · exact none ⟨nil_ok, h2, h3⟩
    · split
      · exact none ⟨h1, h2, h3⟩
      · exact none ⟨h1, h2, h3⟩
  · split
    · exact none ⟨h1, h2, h3⟩
    · next hb =>
      split
      · exact none ⟨mem_snoc h1 hb, h2, h3⟩
      · exact fail
  · split
    · exact none ⟨h1, h2, h3⟩
    · next hb1 =>
      split
      · refine ⟨⟨h1, nil_ok, nil_ok⟩, ?_⟩
        intro e he
        rw [List.mem_singleton.mp he]
        exact ⟨h1, h2, nil_ok, f1, f2, by simp⟩
      · next hb2 =>
        split
        · exact none ⟨h1, mem_snoc h2 ⟨hb1, hb2⟩, h3⟩
        · exact fail
  · split
    · refine ⟨⟨h1, nil_ok, nil_ok⟩, ?_⟩
      intro e he
      rw [List.mem_singleton.mp he]
      exact ⟨h1, h2, h3, f1, f2, f3⟩
    · next hb =>
      split
      · exact none ⟨h1, h2, mem_snoc h3 hb⟩
      · exact fail
  · exact none ⟨h1, h2, h3⟩

theorem clean_bytes (s : Reader) (h : s.Clean) (hf : s.Fits) (l : List Byte) :
    (s.bytes l).1.Clean ∧ ∀ e ∈ (s.bytes l).2, e.Clean := by
  induction l generalizing s with
  | nil => exact ⟨h, by intro e he; cases he⟩
  | cons b l ih =>
    obtain ⟨h1, h2⟩ := clean_byte s h hf b
    obtain ⟨h3, h4⟩ := ih _ h1 (fits_byte s hf b)
    refine ⟨h3, ?_⟩
    intro e he
    rcases List.mem_append.mp he with h' | h'
    · exact h2 e h'
    · exact h4 e h'

theorem clean_chunk (s : Reader) (h : s.Clean) (hf : s.Fits) (l : List Byte) :
    (s.chunk l).1.Clean ∧ ∀ e ∈ (s.chunk l).2, e.Clean := by
  unfold chunk
  split
  · exact ⟨clean_failed, by intro e he; rw [List.mem_singleton.mp he]; exact clean_entry_error⟩
  · exact clean_bytes s h hf l

/-! ## Nothing left over between lines -/

/-- Key and value are empty between lines, and the value is empty inside a key. -/
structure Reader.Tidy (s : Reader) : Prop where
  between : s.mode = .look ∨ s.mode = .sect → s.key = [] ∧ s.value = []
  inKey : s.mode = .key → s.value = []

theorem tidy_start : Reader.start.Tidy := ⟨fun _ => ⟨rfl, rfl⟩, fun _ => rfl⟩

theorem tidy_failed : Reader.failed.Tidy := ⟨(by intro h; rcases h with h | h <;> cases h), (by intro h; cases h)⟩

theorem tidy_byte (s : Reader) (h : s.Tidy) (b : Byte) : (s.byte b).1.Tidy := by
  obtain ⟨h1, h2⟩ := h
  unfold byte
  split
  · next hm =>
    have h1 := h1 (Or.inl hm)
    split
    · exact ⟨fun _ => h1, fun _ => h1.2⟩
    · split
      · exact ⟨fun _ => h1, fun _ => h1.2⟩
      · exact ⟨fun _ => h1, fun _ => h1.2⟩
  · next hm =>
    have h1 := h1 (Or.inr hm)
    split
    · exact ⟨fun _ => h1, fun _ => h1.2⟩
    · split
      · exact ⟨fun _ => h1, fun _ => h1.2⟩
      · exact tidy_failed
  · next hm =>
    have h2 := h2 hm
    split
    · exact ⟨(by intro h; rcases h with h | h <;> cases h), fun _ => h2⟩
    · split
      · exact ⟨fun _ => ⟨rfl, rfl⟩, fun _ => rfl⟩
      · split
        · exact ⟨by intro h; rcases h with h | h <;> (simp only [hm] at h; cases h), fun _ => h2⟩
        · exact tidy_failed
  · next hm =>
    split
    · exact ⟨fun _ => ⟨rfl, rfl⟩, fun _ => rfl⟩
    · split
      · exact ⟨by intro h; rcases h with h | h <;> (simp only [hm] at h; cases h), by intro h; simp only [hm] at h; cases h⟩
      · exact tidy_failed
  · exact ⟨h1, h2⟩

theorem tidy_bytes (s : Reader) (h : s.Tidy) (l : List Byte) : (s.bytes l).1.Tidy := by
  induction l generalizing s with
  | nil => exact h
  | cons b l ih => exact ih _ (tidy_byte s h b)

theorem tidy_chunk (s : Reader) (h : s.Tidy) (l : List Byte) : (s.chunk l).1.Tidy := by
  unfold chunk
  split
  · exact tidy_failed
  · exact tidy_bytes s h l

theorem tidy_ready (s : Reader) (h : s.Tidy) (hm : s.mode = .look) : s = ready s.sect := by
  obtain ⟨h1, h2⟩ := h.between (Or.inl hm)
  cases s
  simp only at h1 h2 hm
  subst h1 h2 hm
  rfl

end Spec

end RR32
