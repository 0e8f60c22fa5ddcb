import Verif.Proofs.Editing

/-! # C92: consumers that modify the buffers they are given -/

set_option autoImplicit false

namespace RR32

open Spec

/-- C92. With a consumer that modifies nothing, these functions are those of Verif.Model.TextParser, for every parser and input. -/
theorem C92_same (p : TextParser) (h : List ParseEvent) (input : BufferManager) :
    TextParser.addTextE (fun _ => { sect := [], key := [], value := [] }) p h input = (p.addText input).map (fun x => (x.1, h ++ x.2)) := by
  unfold TextParser.addTextE TextParser.addText
  split
  · exact reportE_none p h
  · exact addLoopE_none _ p h input 0

/-- A parser built on any memory, with consumer `n`. -/
theorem fresh_conc (a b c d : List Byte) (ha : a.length = 31) (hb : b.length = 11) (hc : c.length = 11) (hd : d.length = 26) (n : Nat)
    (p : TextParser) (hp : TextParser.construct a b c d = .ok p) : p.setConsumer (some n) = conc .start (some n) [] := by
  have := construct_rep a b c d ha hb hc hd
  rw [this] at hp
  cases hp
  rfl

/-- C92. Whatever a consumer does with the buffers, and whatever chunks arrive, of any size: the parser does not leave its buffers, and
every entry it tells the consumer fits the buffers. -/
theorem C92_safe (E : Habit) (hE : E.Lawful) (a b c d : List Byte) (ha : a.length = 31) (hb : b.length = 11) (hc : c.length = 11)
    (hd : d.length = 26) (n : Nat) (p : TextParser) (hp : TextParser.construct a b c d = .ok p) (inputs : List BufferManager)
    (hi : ∀ i ∈ inputs, BufOk i) :
    ∃ q evs, TextParser.addTextsE E.editor (p.setConsumer (some n)) [] inputs = .ok (q, evs) ∧
      BufOk q.buffer ∧ BufOk q.sect ∧ BufOk q.key ∧ BufOk q.value ∧
      ∀ e ∈ evs, e.consumer = n ∧ (content e.sect).length ≤ 11 ∧ (content e.key).length ≤ 11 ∧ (content e.value).length ≤ 26 := by
  rw [fresh_conc a b c d ha hb hc hd n p hp]
  obtain ⟨h1, h2⟩ := addTextsE_conc E hE .start Reader.fits_start n [] inputs hi
  refine ⟨_, _, h1, ofc.ok (by simp) (by omega), ofc.ok h2.sect (by omega), ofc.ok h2.key (by omega), ofc.ok h2.value (by omega), ?_⟩
  intro e he
  simp only [toEvents, List.mem_flatMap, toEvent, List.mem_singleton] at he
  obtain ⟨x, hx, rfl⟩ := he
  obtain ⟨b1, b2, b3⟩ := chunksE_inBounds E (.start, []) Reader.fits_start (by simp) _ x hx
  simp only [ofc.content_eq]
  exact ⟨trivial, b1, b2, b3⟩

/-- C92. What the consumer of a new parser is told for a document cut into chunks of at most 30 bytes in any way. -/
theorem C92_document (E : Habit) (hE : E.Lawful) (a b c d : List Byte) (ha : a.length = 31) (hb : b.length = 11) (hc : c.length = 11)
    (hd : d.length = 26) (n : Nat) (p : TextParser) (hp : TextParser.construct a b c d = .ok p) (items : List Item)
    (hw : ∀ i ∈ items, i.WellFormed) (es : List Entry) (hes : toldBy E [] [] [] items = some es) (inputs : List BufferManager)
    (hi : ∀ i ∈ inputs, BufOk i ∧ (content i).length ≤ 30) (heq : (inputs.map content).flatten = render items) :
    ∃ q evs, TextParser.addTextsE E.editor (p.setConsumer (some n)) [] inputs = .ok (q, evs) ∧
      evs.map told = es.map (fun e => (n, e)) ∧ q.state = .LOOKING_FOR_KEY_OR_SECTION_START := by
  rw [fresh_conc a b c d ha hb hc hd n p hp]
  obtain ⟨h1, -⟩ := addTextsE_conc E hE .start Reader.fits_start n [] inputs (fun i h => (hi i h).1)
  obtain ⟨s', l', -, -, h3, -⟩ := bytesE_render E [] [] [] (by simp) (by simp) items hw es hes
  have h4 : Reader.bytesE E (.start, []) (inputs.map content).flatten = (Reader.readyE s' l', es) := by rw [heq]; exact h3
  have h5 := chunksE_bytes E (.start, []) (inputs.map content) (by
    intro x hx
    obtain ⟨i, hm, rfl⟩ := List.mem_map.mp hx
    exact (hi i hm).2) (by rw [h4]; simp [Reader.readyE])
  rw [h5, h4] at h1
  exact ⟨_, _, h1, told_toEvents (some n) es, rfl⟩

/-- C92. If what the consumer left makes a line too long, or the line is too long by itself, the consumer is told the entries before that
line and then only "ERROR", and the parser stays in the error state. -/
theorem C92_overflow (E : Habit) (hE : E.Lawful) (a b c d : List Byte) (ha : a.length = 31) (hb : b.length = 11) (hc : c.length = 11)
    (hd : d.length = 26) (n : Nat) (p : TextParser) (hp : TextParser.construct a b c d = .ok p) (good : List Item) (bad : Item)
    (rest : List Byte) (hw : ∀ i ∈ good, i.WellFormed) (hwb : bad.WellFormed) (es : List Entry)
    (hes : toldBy E [] [] [] good = some es) (hbad : toldBy E [] [] [] (good ++ [bad]) = none) (inputs : List BufferManager)
    (hi : ∀ i ∈ inputs, BufOk i ∧ (content i).length ≤ 30) (heq : (inputs.map content).flatten = render good ++ (bad.render ++ rest)) :
    ∃ q evs k, TextParser.addTextsE E.editor (p.setConsumer (some n)) [] inputs = .ok (q, evs) ∧
      evs.map told = (es ++ List.replicate (k + 1) Entry.error).map (fun e => (n, e)) ∧ q.state = .ERROR := by
  rw [fresh_conc a b c d ha hb hc hd n p hp]
  obtain ⟨h1, -⟩ := addTextsE_conc E hE .start Reader.fits_start n [] inputs (fun i h => (hi i h).1)
  obtain ⟨s', l', -, hl, h3, h3'⟩ := bytesE_render E [] [] [] (by simp) (by simp) good hw es hes
  rw [h3' [bad]] at hbad
  have h4 : Reader.bytesE E (.start, []) (inputs.map content).flatten = Reader.failE E es := by
    rw [heq, bytesE_append, show Reader.bytesE E (.start, []) (render good) = _ from h3, bytesE_append,
      bytesE_bad E es s' l' hl bad hwb hbad]
    exact bytesE_error E _ rfl _ rest
  obtain ⟨k, h5, h6⟩ := chunksE_any E (.start, []) (by simp [Reader.start]) (inputs.map content) (by
    intro x hx
    obtain ⟨i, hm, rfl⟩ := List.mem_map.mp hx
    exact (hi i hm).2)
  rw [h4] at h5 h6
  have hm := h6.mpr rfl
  refine ⟨_, _, k, h1, ?_, by simp [conc, hm, stateOf]⟩
  rw [told_toEvents, h5]
  simp [Reader.failE, tell, List.replicate_succ]

/-- C92. Whatever a consumer does with the key buffer, and with the value buffer of a line that has a value, has no effect on what it is
told: if it leaves the section alone and leaves the value buffer of a key without value empty, it is told the entries of the document. -/
theorem C92_harmless (E : Habit)
    (hS : ∀ done e, edit maxSection e.sect (E (done ++ [e])).sect = e.sect)
    (hV : ∀ done e, e.value = [] → edit maxValue [] (E (done ++ [e])).value = [])
    (items : List Item) (hf : ∀ i ∈ items, i.Fits) (done : List Entry) (sect : List Byte) :
    toldBy E done sect [] items = some (done ++ entriesOf sect items) := by
  induction items generalizing done sect with
  | nil => simp [toldBy, entriesOf]
  | cons i is ih =>
    have hi := hf i (List.mem_cons_self ..)
    have ih' := ih (fun j hj => hf j (List.mem_cons_of_mem _ hj))
    cases i with
    | «section» f nm =>
      rw [toldBy, if_pos (show nm.length ≤ maxSection from hi), ih']
      rfl
    | entry f k v =>
      rw [toldBy, if_pos (show k.length ≤ maxKey ∧ (([] : List Byte) ++ v).length ≤ maxValue from hi)]
      have e1 := hS done { sect := sect, key := k, value := [] ++ v }
      simp only at e1 ⊢
      rw [e1, ih']
      simp [entriesOf, Item.entries, Item.sectionAfter]
    | flag f k =>
      rw [toldBy, if_pos (show k.length ≤ maxKey from hi)]
      have e1 := hS done { sect := sect, key := k, value := [] }
      have e2 := hV done { sect := sect, key := k, value := [] } rfl
      simp only at e1 e2 ⊢
      rw [e1, e2, ih']
      simp [entriesOf, Item.entries, Item.sectionAfter]

/-! ## Cases -/

/-- A consumer that renames the section "alt" to "neu", cuts one byte off each key, and marks keys without a value by writing "!" into
the value buffer. -/
def meddler : Habit := fun es =>
  match es.getLast? with
  | none => { sect := [], key := [], value := [] }
  | some e =>
      { sect := if e.sect = str "alt" then [.set (str "neu")] else [], key := [.pop_front 1],
        value := if e.value = [] then [.push_back_char (ch '!')] else [.put 0 (ch '0'), .erase] }

theorem meddler_lawful : meddler.Lawful := by
  intro done e _
  simp only [meddler, List.getLast?_concat]
  refine ⟨?_, ⟨by show 1 < 256; decide, trivial⟩, ?_⟩
  · split
    · exact ⟨by show ∀ c ∈ str "neu", c ≠ 0#8; decide, trivial⟩
    · trivial
  · split
    · exact ⟨trivial, trivial⟩
    · rename_i h
      exact ⟨⟨by decide, h⟩, trivial, trivial⟩

/-- The document `[alt]`, `.a=1`, `.flag`, `.b=2`, `.c=3`. -/
def meddled : List Item :=
  [.section [] (str "alt"), .entry (str " ") (str "a") (str "1"), .flag (str " ") (str "flag"), .entry (str " ") (str "b") (str "2"),
    .entry (str " ") (str "c") (str "3")]

/-- C92: what this consumer is told. The section changes after the first entry, and the mark left at the key without a value appears in
the value of the next line. -/
theorem C92_case :
    (∀ i ∈ meddled, i.WellFormed) ∧
    toldBy meddler [] [] [] meddled = some
      [{ sect := str "alt", key := str "a", value := str "1" }, { sect := str "neu", key := str "flag", value := [] },
       { sect := str "neu", key := str "b", value := str "!2" }, { sect := str "neu", key := str "c", value := str "3" }] ∧
    entriesOf [] meddled =
      [{ sect := str "alt", key := str "a", value := str "1" }, { sect := str "alt", key := str "flag", value := [] },
       { sect := str "alt", key := str "b", value := str "2" }, { sect := str "alt", key := str "c", value := str "3" }] := by
  refine ⟨?_, by decide, by decide⟩
  intro i hi
  simp only [meddled, List.mem_cons, List.not_mem_nil, or_false] at hi
  rcases hi with rfl | rfl | rfl | rfl | rfl
  · exact ⟨by unfold IsFiller; decide, by unfold IsName; decide⟩
  · exact ⟨by unfold IsFiller; decide, by unfold IsKey; decide, by unfold IsValue; decide⟩
  · exact ⟨by unfold IsFiller; decide, by unfold IsKey; decide⟩
  · exact ⟨by unfold IsFiller; decide, by unfold IsKey; decide, by unfold IsValue; decide⟩
  · exact ⟨by unfold IsFiller; decide, by unfold IsKey; decide, by unfold IsValue; decide⟩

/-- C92_overflow: a consumer that leaves 26 bytes at a key without a value makes the next value too long. -/
theorem C92_overflow_case :
    toldBy (fun _ => { sect := [], key := [], value := [.push_back (List.replicate 30 65#8)] }) [] [] [] [.flag [] (str "f")] =
        some [{ sect := [], key := str "f", value := [] }] ∧
      toldBy (fun _ => { sect := [], key := [], value := [.push_back (List.replicate 30 65#8)] }) [] [] []
        ([.flag [] (str "f")] ++ [.entry [] (str "k") (str "1")]) = none := by
  constructor <;> decide

/-- C92_harmless: a consumer that cuts keys and overwrites values. -/
theorem C92_harmless_case :
    let E : Habit := fun es => match es.getLast? with
      | none => { sect := [], key := [], value := [] }
      | some e => { sect := [], key := [.pop_front 1], value := if e.value = [] then [] else [.erase, .push_back (str "x")] }
    (∀ done e, edit maxSection e.sect (E (done ++ [e])).sect = e.sect) ∧
      (∀ done e, e.value = [] → edit maxValue [] (E (done ++ [e])).value = []) := by
  refine ⟨fun done e => ?_, fun done e h => ?_⟩ <;> simp [edit, *]

end RR32
