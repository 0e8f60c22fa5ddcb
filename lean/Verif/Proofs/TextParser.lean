import Verif.Model.TextParser
import Verif.Proofs.Reader
import Verif.Props.Buffer

/-! # The text parser simulates the reader -/

set_option autoImplicit false

namespace RR32

open Spec

/-- A buffer whose array is exactly its capacity and whose bytes behind the content are zero. -/
def ofc (cap : Nat) (c : List Byte) : BufferManager := { mem := c ++ List.replicate (cap - c.length) 0#8, len := c.length, cap := cap }

namespace ofc

variable {cap : Nat} {c : List Byte}

theorem mem_length (h : c.length ≤ cap) : (ofc cap c).mem.length = cap := by simp [ofc]; omega

theorem content_eq : content (ofc cap c) = c := by simp [content, ofc]

theorem ok (h : c.length ≤ cap) (hc : cap ≤ 255) : BufOk (ofc cap c) := ⟨h, hc, by simp [ofc]; omega⟩

theorem erase_any (b : BufferManager) (h : b.mem.length = b.cap) : b.erase = .ok (ofc b.cap []) := by
  have := BufferManager.erase_eq b.mem [] b.len b.cap h
  simp only [List.append_nil] at this
  rw [this]
  simp [ofc]

theorem erase (h : c.length ≤ cap) : (ofc cap c).erase = .ok (ofc cap []) := erase_any (ofc cap c) (mem_length h)

theorem set_any (b : BufferManager) (hb : b.mem.length = b.cap) (h1 : 1 ≤ b.cap) (hc : b.cap ≤ 255) (text rest : List Byte)
    (hn : NoNul text) : b.set (text ++ 0#8 :: rest) = .ok (ofc b.cap (text.take (b.cap - 1))) := by
  have := BufferManager.set_eq b.mem [] text rest b.len b.cap hb h1 hc hn
  simp only [List.append_nil] at this
  rw [this]
  rfl

theorem push_back (h : c.length ≤ cap) (hc : cap ≤ 255) (o : BufferManager) (ho : o.len ≤ o.mem.length) :
    (ofc cap c).push_back o = .ok (ofc cap (c ++ (content o).take (cap - c.length)), min (cap - c.length) (content o).length) := by
  have hon := BufferManager.normal o ho
  generalize content o = d at *
  rw [hon]
  have := BufferManager.push_back_eq c (List.replicate (cap - c.length) 0#8) d (o.mem.drop o.len) cap o.cap h hc (by simp; omega)
  rw [ofc, this, List.drop_replicate]
  simp only [ofc, List.length_append, List.length_take]
  congr 4
  congr 1
  omega

theorem pop_front (h : c.length ≤ cap) (hc : cap ≤ 255) (n : Nat) : (ofc cap c).pop_front n = .ok (ofc cap (c.drop n)) := by
  have := BufferManager.pop_front_eq c (List.replicate (cap - c.length) 0#8) n cap h hc (by simp; omega)
  rw [ofc, this]
  rw [List.drop_eq_nil_of_le (as := c ++ _) (by simp; omega), List.append_nil]
  rfl

theorem get (h : c.length ≤ cap) (hc : cap ≤ 255) (k : Nat) (hk : k < c.length) : (ofc cap c).get k = .ok c[k] := by
  have hne : c ≠ [] := by intro e; subst e; simp at hk
  have := BufferManager.get_eq c (List.replicate (cap - c.length) 0#8) k cap h hc hne
  rw [ofc, this]
  congr 2
  omega

end ofc

theorem findLoop_eq (pre l post : List Byte) (p : Byte → Bool) :
    BufferManager.findLoop (pre ++ (l ++ post)) p l.length pre.length =
      .ok (if l.all (fun c => !p c) then BufferManager.npos else pre.length + (l.takeWhile (fun c => !p c)).length) := by
  induction l generalizing pre with
  | nil => rfl
  | cons x l ih =>
    have e : peek (pre ++ (x :: l ++ post)) pre.length = .ok x := by
      rw [peek_eq _ _ (by simp)]; simp
    have e2 : pre ++ (x :: l ++ post) = (pre ++ [x]) ++ (l ++ post) := by simp
    simp only [List.length_cons, BufferManager.findLoop, e, bind, Except.bind]
    by_cases hp : p x = true
    · simp [hp]
    · have hp' : p x = false := by simpa using hp
      have := ih (pre ++ [x])
      rw [List.length_append, List.length_singleton] at this
      rw [if_neg hp, e2, this]
      simp [hp']
      split <;> omega

/-- Searching in the work buffer, given how the rest is split at the first stop character. -/
theorem find_split (chars : List Byte) (hn : NoNul chars) (hl : chars.length < 256) (pre a tl : List Byte)
    (hw : (pre ++ (a ++ tl)).length ≤ 31) (ha : ∀ b ∈ a, b ∉ chars) (hne : a ++ tl ≠ []) (ht : ∀ c r, tl = c :: r → c ∈ chars) :
    (ofc 31 (pre ++ (a ++ tl))).findFirstOf (chars ++ [0#8]) pre.length =
      .ok (if tl = [] then 255 else pre.length + a.length) := by
  have hp := List.length_pos_iff.mpr hne
  simp only [BufferManager.findFirstOf]
  rw [if_neg (by simp only [ofc, List.length_append] at *; omega), strlen_eq chars [] hn]
  simp only [bind, Except.bind, u8, Nat.mod_eq_of_lt hl, List.take_left]
  have := findLoop_eq pre (a ++ tl) (List.replicate (31 - (pre ++ (a ++ tl)).length) 0#8) (fun c => chars.contains c)
  rw [← List.append_assoc] at this
  rw [show (ofc 31 (pre ++ (a ++ tl))).len - pre.length = (a ++ tl).length by simp [ofc]]
  refine Eq.trans this ?_
  congr 1
  have h1 : a.all (fun c => !chars.contains c) = true := by
    rw [List.all_eq_true]; intro x hx; simpa using ha x hx
  cases tl with
  | nil => rw [List.append_nil, if_pos h1, if_pos rfl]; rfl
  | cons c r =>
    have hc : c ∈ chars := ht c r rfl
    rw [if_neg (by simp [hc]), if_neg (by simp)]
    congr 1
    rw [List.takeWhile_append_of_pos (by rw [List.all_eq_true] at h1; exact h1), List.takeWhile_cons_of_neg (by simp [hc]), List.append_nil]

/-- Modes and parser states. -/
def stateOf : Mode → ParserState
  | .look => .LOOKING_FOR_KEY_OR_SECTION_START
  | .sect => .PARSING_SECTION
  | .key => .PARSING_KEY
  | .value => .PARSING_VALUE
  | .error => .ERROR

/-- The text parser in the state of a reader, with content `w` in the work buffer. -/
def conc (s : Reader) (cons : Option Nat) (w : List Byte) : TextParser :=
  { state := stateOf s.mode, consumer := cons, buffer := ofc 31 w, sect := ofc 11 s.sect, key := ofc 11 s.key, value := ofc 26 s.value }

/-- An entry as a call. -/
def toEvent (cons : Option Nat) (e : Entry) : List ParseEvent :=
  match cons with
  | none => []
  | some c => [{ consumer := c, sect := ofc 11 e.sect, key := ofc 11 e.key, value := ofc 26 e.value }]

/-- Entries as calls. -/
def toEvents (cons : Option Nat) (es : List Entry) : List ParseEvent := es.flatMap (toEvent cons)

theorem toEvents_append (cons : Option Nat) (a b : List Entry) : toEvents cons (a ++ b) = toEvents cons a ++ toEvents cons b := by
  simp [toEvents]

theorem emit_conc (s : Reader) (cons : Option Nat) (w : List Byte) :
    (conc s cons w).emit = toEvents cons [{ sect := s.sect, key := s.key, value := s.value }] := by
  cases cons <;> simp [TextParser.emit, conc, toEvents, toEvent]

theorem noNul_error : NoNul (str "ERROR") := by
  intro c hc
  have : ∀ c ∈ str "ERROR", c ≠ 0#8 := by decide
  exact this c hc

/-- `reportParseError` on buffers of the right size. -/
theorem report_eq (p : TextParser) (w : List Byte) (h0 : p.buffer = ofc 31 w) (h1 : p.sect.mem.length = 11) (h1' : p.sect.cap = 11)
    (h2 : p.key.mem.length = 11) (h2' : p.key.cap = 11) (h3 : p.value.mem.length = 26) (h3' : p.value.cap = 26) :
    p.reportParseError = .ok (conc .failed p.consumer w, toEvents p.consumer [Entry.error]) := by
  have e1 := ofc.set_any p.sect (by omega) (by omega) (by omega) (str "ERROR") [] noNul_error
  have e2 := ofc.set_any p.key (by omega) (by omega) (by omega) (str "ERROR") [] noNul_error
  have e3 := ofc.set_any p.value (by omega) (by omega) (by omega) (str "ERROR") [] noNul_error
  rw [h1'] at e1
  rw [h2'] at e2
  rw [h3'] at e3
  simp only [TextParser.reportParseError, lit, e1, e2, e3, bind, Except.bind, h0]
  have := emit_conc .failed p.consumer w
  exact congrArg (fun x => Except.ok (conc .failed p.consumer w, x)) this

theorem report_conc (s : Reader) (hs : s.Fits) (cons : Option Nat) (w : List Byte) :
    (conc s cons w).reportParseError = .ok (conc .failed cons w, toEvents cons [Entry.error]) :=
  report_eq (conc s cons w) w rfl (ofc.mem_length hs.sect) rfl (ofc.mem_length hs.key) rfl (ofc.mem_length hs.value) rfl

/-- What a destination buffer holds, and its capacity. -/
def destOf (s : Reader) : TextParser.Dest → List Byte
  | .null => []
  | .sect => s.sect
  | .key => s.key
  | .value => s.value

/-- The capacity of a destination. -/
def destCap : TextParser.Dest → Nat
  | .null => 255
  | .sect => 11
  | .key => 11
  | .value => 26

/-- Appending to a destination. -/
def pushed (s : Reader) (a : List Byte) : TextParser.Dest → Reader
  | .null => s
  | .sect => { s with sect := s.sect ++ a }
  | .key => { s with key := s.key ++ a }
  | .value => { s with value := s.value ++ a }

/-- What `findToken` answers when all fits. -/
def tokenResult (n : Nat) : List Byte → TextParser.FindTokenResult
  | [] => { consumed := n, success := false, matchingChar := 0#8 }
  | c :: _ => { consumed := n + 1, success := true, matchingChar := c }

theorem view_content (pre a tl : List Byte) (hw : (pre ++ (a ++ tl)).length ≤ 31) :
    content ((ofc 31 (pre ++ (a ++ tl))).subBufferManager pre.length (pre.length + a.length)) = a ∧
    ((ofc 31 (pre ++ (a ++ tl))).subBufferManager pre.length (pre.length + a.length)).len = a.length ∧
    ((ofc 31 (pre ++ (a ++ tl))).subBufferManager pre.length (pre.length + a.length)).len ≤
      ((ofc 31 (pre ++ (a ++ tl))).subBufferManager pre.length (pre.length + a.length)).mem.length := by
  have hok := ofc.ok hw (by omega)
  have hv := (C28_view _ hok pre.length (pre.length + a.length)).2.2.1
  have hle := Nat.le_trans hv.len_le hv.mem_le
  have hc : content ((ofc 31 (pre ++ (a ++ tl))).subBufferManager pre.length (pre.length + a.length)) = a := by
    rw [C28_content _ hok _ _ (by rw [ofc.content_eq]; simp), ofc.content_eq, ← List.append_assoc, ← List.length_append, List.take_left,
      List.drop_left]
  refine ⟨hc, ?_, hle⟩
  have := congrArg List.length hc
  rw [content, List.length_take, Nat.min_eq_left hle] at this
  exact this

/-- What the search answers. -/
def searchResult (n : Nat) : List Byte → TextParser.FindTokenResult
  | [] => { consumed := n, success := false, matchingChar := 0#8 }
  | c :: _ => { consumed := n, success := true, matchingChar := c }

theorem searchToken_eq (chars : List Byte) (hn : NoNul chars) (hl : chars.length < 256) (pre a tl : List Byte)
    (hw : (pre ++ (a ++ tl)).length ≤ 31) (ha : ∀ b ∈ a, b ∉ chars) (hne : a ++ tl ≠ []) (ht : ∀ c r, tl = c :: r → c ∈ chars) :
    TextParser.searchToken (ofc 31 (pre ++ (a ++ tl))) pre.length (chars ++ [0#8]) =
      .ok (searchResult (pre.length + a.length) tl) := by
  have hw' : pre.length + (a.length + tl.length) ≤ 31 := by simpa using hw
  have hf := find_split chars hn hl pre a tl hw ha hne ht
  simp only [TextParser.searchToken, hf, bind, Except.bind]
  cases tl with
  | nil => simp [BufferManager.npos, ofc, searchResult]
  | cons c r =>
    have hg : (ofc 31 (pre ++ (a ++ c :: r))).get (pre.length + a.length) = .ok c := by
      rw [ofc.get hw (by omega) _ (by simp)]
      simp
    have hnp : ¬pre.length + a.length = BufferManager.npos := by unfold BufferManager.npos; omega
    simp only [reduceCtorEq, if_false]
    rw [if_neg hnp, hg]
    rfl

theorem storeToken_eq (s : Reader) (hs : s.Fits) (cons : Option Nat) (d : TextParser.Dest) (pre a tl : List Byte)
    (hw : (pre ++ (a ++ tl)).length ≤ 31) (r : TextParser.FindTokenResult) (hr : r.consumed = pre.length + a.length) :
    (conc s cons (pre ++ (a ++ tl))).storeToken pre.length d r =
      .ok (if (destOf s d).length + a.length ≤ destCap d then (conc (pushed s a d) cons (pre ++ (a ++ tl)), [], r)
           else (conc .failed cons (pre ++ (a ++ tl)), toEvents cons [Entry.error], { r with success := false })) := by
  obtain ⟨v1, v2, v3⟩ := view_content pre a tl hw
  have hw' : pre.length + (a.length + tl.length) ≤ 31 := by simpa using hw
  have hb : ∀ s', (conc s' cons (pre ++ (a ++ tl))).buffer = ofc 31 (pre ++ (a ++ tl)) := fun _ => rfl
  have core : ∀ (cap : Nat) (c : List Byte) (hc : c.length ≤ cap) (h255 : cap ≤ 255),
      (ofc cap c).push_back ((ofc 31 (pre ++ (a ++ tl))).subBufferManager pre.length (pre.length + a.length)) =
        .ok (ofc cap (c ++ a.take (cap - c.length)), min (cap - c.length) a.length) := by
    intro cap c hc h255
    rw [ofc.push_back hc h255 _ v3, v1]
  cases d with
  | null =>
    rw [if_pos (by simp only [destOf, destCap, List.length_nil]; omega)]
    rfl
  | sect =>
    have e := core 11 s.sect hs.sect (by omega)
    have h1 := hs.sect
    unfold maxSection at h1
    simp only [TextParser.storeToken, TextParser.dest, conc, hr, e, bind, Except.bind, destOf, destCap, v2]
    by_cases hf : s.sect.length + a.length ≤ 11
    · rw [if_neg (by omega), if_pos hf, List.take_of_length_le (by omega)]
      rfl
    · rw [if_pos (by omega), if_neg hf]
      rw [report_eq _ (pre ++ (a ++ tl)) rfl (by simp [TextParser.withDest, ofc]; omega) rfl
        (ofc.mem_length hs.key) rfl (ofc.mem_length hs.value) rfl]
      rfl
  | key =>
    have e := core 11 s.key hs.key (by omega)
    have h1 := hs.key
    unfold maxKey at h1
    simp only [TextParser.storeToken, TextParser.dest, conc, hr, e, bind, Except.bind, destOf, destCap, v2]
    by_cases hf : s.key.length + a.length ≤ 11
    · rw [if_neg (by omega), if_pos hf, List.take_of_length_le (by omega)]
      rfl
    · rw [if_pos (by omega), if_neg hf]
      rw [report_eq _ (pre ++ (a ++ tl)) rfl (ofc.mem_length hs.sect) rfl (by simp [TextParser.withDest, ofc]; omega) rfl
        (ofc.mem_length hs.value) rfl]
      rfl
  | value =>
    have e := core 26 s.value hs.value (by omega)
    have h1 := hs.value
    unfold maxValue at h1
    simp only [TextParser.storeToken, TextParser.dest, conc, hr, e, bind, Except.bind, destOf, destCap, v2]
    by_cases hf : s.value.length + a.length ≤ 26
    · rw [if_neg (by omega), if_pos hf, List.take_of_length_le (by omega)]
      rfl
    · rw [if_pos (by omega), if_neg hf]
      rw [report_eq _ (pre ++ (a ++ tl)) rfl (ofc.mem_length hs.sect) rfl (ofc.mem_length hs.key) rfl
        (by simp [TextParser.withDest, ofc]; omega) rfl]
      rfl

theorem findToken_conc (s : Reader) (hs : s.Fits) (cons : Option Nat) (d : TextParser.Dest) (chars : List Byte) (hn : NoNul chars)
    (hl : chars.length < 256) (pre a tl : List Byte) (hw : (pre ++ (a ++ tl)).length ≤ 31) (ha : ∀ b ∈ a, b ∉ chars)
    (hne : a ++ tl ≠ []) (ht : ∀ c r, tl = c :: r → c ∈ chars) :
    ∃ m, (conc s cons (pre ++ (a ++ tl))).findToken pre.length (chars ++ [0#8]) d =
        .ok (if (destOf s d).length + a.length ≤ destCap d
             then (conc (pushed s a d) cons (pre ++ (a ++ tl)), [], tokenResult (pre.length + a.length) tl)
             else (conc .failed cons (pre ++ (a ++ tl)), toEvents cons [Entry.error],
               { consumed := pre.length + a.length, success := false, matchingChar := m })) := by
  have hw' : pre.length + (a.length + tl.length) ≤ 31 := by simpa using hw
  have h1 := searchToken_eq chars hn hl pre a tl hw ha hne ht
  have h2 := storeToken_eq s hs cons d pre a tl hw (searchResult (pre.length + a.length) tl) (by cases tl <;> rfl)
  refine ⟨(searchResult (pre.length + a.length) tl).matchingChar, ?_⟩
  simp only [TextParser.findToken, bind, Except.bind]
  rw [show (conc s cons (pre ++ (a ++ tl))).buffer = ofc 31 (pre ++ (a ++ tl)) from rfl, h1]
  simp only [h2]
  by_cases hf : (destOf s d).length + a.length ≤ destCap d
  · simp only [if_pos hf]
    cases tl with
    | nil => rfl
    | cons c r =>
      simp only [searchResult, if_true, tokenResult, u8]
      simp only [List.length_cons] at hw'
      rw [Nat.mod_eq_of_lt (by omega)]
  · simp only [if_neg hf]
    cases tl <;> rfl

/-- Splitting at the first stop character. -/
theorem split_stop (chars rest : List Byte) : ∃ a tl, rest = a ++ tl ∧ (∀ b ∈ a, b ∉ chars) ∧ ∀ c r, tl = c :: r → c ∈ chars := by
  induction rest with
  | nil => exact ⟨[], [], rfl, by simp, by simp⟩
  | cons x rest ih =>
    by_cases hx : x ∈ chars
    · refine ⟨[], x :: rest, rfl, by simp, ?_⟩
      intro c r h
      cases h
      exact hx
    · obtain ⟨a, tl, e, h1, h2⟩ := ih
      refine ⟨x :: a, tl, by rw [e]; rfl, ?_, h2⟩
      intro b hb
      rcases List.mem_cons.mp hb with h | h
      · rw [h]; exact hx
      · exact h1 b h

/-- One turn of the loop reads a non-empty part of the rest. -/
theorem processStep_conc (s : Reader) (hs : s.Fits) (cons : Option Nat) (pre rest : List Byte) (hne : rest ≠ [])
    (hw : (pre ++ rest).length ≤ 31) :
    ∃ k s' es, (conc s cons (pre ++ rest)).processStep pre.length = .ok (conc s' cons (pre ++ rest), toEvents cons es, pre.length + k, false) ∧
      0 < k ∧ k ≤ rest.length ∧ s'.Fits ∧
      s.bytes rest = ((s'.bytes (rest.drop k)).1, es ++ (s'.bytes (rest.drop k)).2) := by
  have drop_tl : ∀ a c (r : List Byte), (a ++ c :: r).drop (a.length + 1) = r := by intro a c r; simp
  match hm : s.mode with
  | .look =>
    obtain ⟨a, tl, rfl, ha, ht⟩ := split_stop (str ".[") rest
    have haf : IsFiller a := by
      intro b hb
      have := ha b hb
      constructor
      · intro e; exact this (by rw [e]; decide)
      · intro e; exact this (by rw [e]; decide)
    have hw' : pre.length + (a.length + tl.length) ≤ 31 := by simpa using hw
    obtain ⟨m, hf⟩ := findToken_conc s hs cons .null (str ".[") (by intro c hc; revert c; decide) (by decide) pre a tl hw ha hne ht
    rw [if_pos (by simp only [destOf, destCap, List.length_nil]; omega)] at hf
    have hst : (conc s cons (pre ++ (a ++ tl))).state = .LOOKING_FOR_KEY_OR_SECTION_START := by simp [conc, hm, stateOf]
    simp only [TextParser.processStep, hst, TextParser.kKeyOrSectionStart, lit, hf, bind, Except.bind]
    cases tl with
    | nil =>
      refine ⟨a.length, s, [], by rfl, List.length_pos_iff.mpr (by simpa using hne), by simp, hs, ?_⟩
      simp [Reader.bytes_filler s hm a haf, Reader.bytes]
    | cons c r =>
      simp only [List.length_cons] at hw'
      have hu : u8 (pre.length + a.length + 1 + 256 - 1) = pre.length + a.length := by simp only [u8]; omega
      have hg : (ofc 31 (pre ++ (a ++ c :: r))).get (pre.length + a.length) = .ok c := by
        rw [ofc.get hw (by omega) _ (by simp)]
        simp
      have hb : ∀ s', (conc s' cons (pre ++ (a ++ c :: r))).buffer = ofc 31 (pre ++ (a ++ c :: r)) := fun _ => rfl
      have hby : s.bytes (a ++ c :: r) = s.bytes (c :: r) := by
        rw [Reader.bytes_append, Reader.bytes_filler s hm a haf]; simp
      simp only [tokenResult, if_true, hu, hb, hg, pushed]
      by_cases h1 : c = ch '['
      · rw [if_pos (show c = TextParser.kSectionStart from h1)]
        have he : (conc s cons (pre ++ (a ++ c :: r))).sect.erase = .ok (ofc 11 []) := ofc.erase hs.sect
        rw [he]
        refine ⟨a.length + 1, { s with mode := .sect, sect := [] }, [], by rfl, by omega, by simp, ⟨by simp, hs.key, hs.value⟩, ?_⟩
        rw [hby, drop_tl, Reader.bytes_cons]
        simp [Reader.byte, hm, h1]
      · rw [if_neg (show ¬c = TextParser.kSectionStart from h1)]
        have h2 : c = ch '.' := by
          have := ht c r rfl
          have h3 : c ∈ [ch '.', ch '['] := this
          simp only [List.mem_cons, List.not_mem_nil, or_false] at h3
          exact h3.resolve_right h1
        rw [if_pos (show c = TextParser.kKeyStart from h2)]
        refine ⟨a.length + 1, { s with mode := .key }, [], by rfl, by omega, by simp, ⟨hs.sect, hs.key, hs.value⟩, ?_⟩
        rw [hby, drop_tl, Reader.bytes_cons]
        have h4 : ¬ch '.' = ch '[' := by decide
        simp [Reader.byte, hm, h2, h4]
  | .sect =>
    obtain ⟨a, tl, rfl, ha, ht⟩ := split_stop (str "]") rest
    have haf : IsName a := by
      intro b hb e
      exact ha b hb (by rw [e]; decide)
    have hw' : pre.length + (a.length + tl.length) ≤ 31 := by simpa using hw
    obtain ⟨m, hf⟩ := findToken_conc s hs cons .sect (str "]") (by intro c hc; revert c; decide) (by decide) pre a tl hw ha hne ht
    have hst : (conc s cons (pre ++ (a ++ tl))).state = .PARSING_SECTION := by simp [conc, hm, stateOf]
    have hby := Reader.bytes_name s hm hs.sect a haf
    unfold maxSection at hby
    by_cases hfit : s.sect.length + a.length ≤ 11
    · rw [if_pos hfit] at hby
      rw [if_pos (show (destOf s .sect).length + a.length ≤ destCap .sect from hfit)] at hf
      simp only [TextParser.processStep, hst, TextParser.kSectionStop, lit, hf, bind, Except.bind]
      have hs' : (pushed s a .sect).Fits := ⟨by simpa [pushed, maxSection] using hfit, hs.key, hs.value⟩
      cases tl with
      | nil =>
        refine ⟨a.length, pushed s a .sect, [], by rfl, List.length_pos_iff.mpr (by simpa using hne), by simp, hs', ?_⟩
        simp [hby, Reader.bytes, pushed]
      | cons c r =>
        have hc : c = ch ']' := by simpa [str] using ht c r rfl
        refine ⟨a.length + 1, { s with mode := .look, sect := s.sect ++ a }, [], by rfl, by omega, by simp, ⟨hs'.sect, hs.key, hs.value⟩, ?_⟩
        rw [drop_tl, Reader.bytes_append, hby, Reader.bytes_cons]
        simp [Reader.byte, hm, hc]
    · rw [if_neg hfit] at hby
      rw [if_neg (show ¬(destOf s .sect).length + a.length ≤ destCap .sect from hfit)] at hf
      simp only [TextParser.processStep, hst, TextParser.kSectionStop, lit, hf, bind, Except.bind]
      have h11 := hs.sect
      unfold maxSection at h11
      refine ⟨a.length, .failed, [Entry.error], by rfl, by omega, by simp, Reader.fits_failed, ?_⟩
      rw [Reader.bytes_append, hby]
      simp [Reader.bytes_failed]
  | .key =>
    obtain ⟨a, tl, rfl, ha, ht⟩ := split_stop [ch '=', ch '\n'] rest
    have haf : IsKey a := by
      intro b hb
      have := ha b hb
      simpa using this
    have hw' : pre.length + (a.length + tl.length) ≤ 31 := by simpa using hw
    obtain ⟨m, hf⟩ := findToken_conc s hs cons .key [ch '=', ch '\n'] (by intro c hc; revert c; decide) (by decide) pre a tl hw ha hne ht
    have hst : (conc s cons (pre ++ (a ++ tl))).state = .PARSING_KEY := by simp [conc, hm, stateOf]
    have hch : ([TextParser.kKeyStop, TextParser.kValueStop, 0#8] : List Byte) = [ch '=', ch '\n'] ++ [0#8] := rfl
    have hby := Reader.bytes_key s hm hs.key a haf
    unfold maxKey at hby
    by_cases hfit : s.key.length + a.length ≤ 11
    · rw [if_pos hfit] at hby
      rw [if_pos (show (destOf s .key).length + a.length ≤ destCap .key from hfit)] at hf
      have hs' : (pushed s a .key).Fits := ⟨hs.sect, by simpa [pushed, maxKey] using hfit, hs.value⟩
      cases tl with
      | nil =>
        simp only [TextParser.processStep, hst, hch, hf, bind, Except.bind]
        refine ⟨a.length, pushed s a .key, [], by rfl, List.length_pos_iff.mpr (by simpa using hne), by simp, hs', ?_⟩
        simp [hby, Reader.bytes, pushed]
      | cons c r =>
        simp only [tokenResult] at hf
        simp only [TextParser.processStep, hst, hch, hf, bind, Except.bind]
        rw [if_pos trivial]
        by_cases h1 : c = ch '='
        · rw [if_pos (show c = TextParser.kKeyStop from h1)]
          refine ⟨a.length + 1, { s with mode := .value, key := s.key ++ a }, [], by rfl, by omega, by simp,
            ⟨hs.sect, hs'.key, hs.value⟩, ?_⟩
          rw [drop_tl, Reader.bytes_append, hby, Reader.bytes_cons]
          simp [Reader.byte, hm, h1]
        · have h2 : c = ch '\n' := by
            have h3 := ht c r rfl
            simp only [List.mem_cons, List.not_mem_nil, or_false] at h3
            exact h3.resolve_left h1
          rw [if_neg (show ¬c = TextParser.kKeyStop from h1), if_pos (show c = TextParser.kValueStop from h2)]
          have e1 : (conc (pushed s a .key) cons (pre ++ (a ++ c :: r))).value.erase = .ok (ofc 26 []) := ofc.erase hs.value
          have e2 : (conc (pushed s a .key) cons (pre ++ (a ++ c :: r))).key.erase = .ok (ofc 11 []) := ofc.erase hs'.key
          rw [e1]
          simp only [e2]
          have e3 := emit_conc { pushed s a .key with value := [] } cons (pre ++ (a ++ c :: r))
          refine ⟨a.length + 1, { s with mode := .look, key := [], value := [] },
            [{ sect := s.sect, key := s.key ++ a, value := [] }], ?_, by omega, by simp, ⟨hs.sect, by simp, by simp⟩, ?_⟩
          · exact congrArg (fun x => Except.ok (conc { s with mode := .look, key := [], value := [] } cons (pre ++ (a ++ c :: r)), x,
              pre.length + a.length + 1, false)) e3
          · rw [drop_tl, Reader.bytes_append, hby, Reader.bytes_cons]
            have h4 : ¬ch '\n' = ch '=' := by decide
            simp [Reader.byte, hm, h2, h4]
    · rw [if_neg hfit] at hby
      rw [if_neg (show ¬(destOf s .key).length + a.length ≤ destCap .key from hfit)] at hf
      simp only [TextParser.processStep, hst, hch, hf, bind, Except.bind]
      have h11 := hs.key
      unfold maxKey at h11
      refine ⟨a.length, .failed, [Entry.error], by rfl, by omega, by simp, Reader.fits_failed, ?_⟩
      rw [Reader.bytes_append, hby]
      simp [Reader.bytes_failed]
  | .value =>
    obtain ⟨a, tl, rfl, ha, ht⟩ := split_stop [ch '\n'] rest
    have haf : IsValue a := by
      intro b hb
      have := ha b hb
      simpa using this
    have hw' : pre.length + (a.length + tl.length) ≤ 31 := by simpa using hw
    obtain ⟨m, hf⟩ := findToken_conc s hs cons .value [ch '\n'] (by intro c hc; revert c; decide) (by decide) pre a tl hw ha hne ht
    have hst : (conc s cons (pre ++ (a ++ tl))).state = .PARSING_VALUE := by simp [conc, hm, stateOf]
    have hch : ([TextParser.kValueStop, 0#8] : List Byte) = [ch '\n'] ++ [0#8] := rfl
    have hby := Reader.bytes_value s hm hs.value a haf
    unfold maxValue at hby
    by_cases hfit : s.value.length + a.length ≤ 26
    · rw [if_pos hfit] at hby
      rw [if_pos (show (destOf s .value).length + a.length ≤ destCap .value from hfit)] at hf
      simp only [TextParser.processStep, hst, hch, hf, bind, Except.bind]
      have hs' : (pushed s a .value).Fits := ⟨hs.sect, hs.key, by simpa [pushed, maxValue] using hfit⟩
      cases tl with
      | nil =>
        refine ⟨a.length, pushed s a .value, [], by rfl, List.length_pos_iff.mpr (by simpa using hne), by simp, hs', ?_⟩
        simp [hby, Reader.bytes, pushed]
      | cons c r =>
        have hc : c = ch '\n' := by simpa using ht c r rfl
        simp only [tokenResult, if_true]
        have e1 : (conc (pushed s a .value) cons (pre ++ (a ++ c :: r))).value.erase = .ok (ofc 26 []) := ofc.erase hs'.value
        have e2 : (conc (pushed s a .value) cons (pre ++ (a ++ c :: r))).key.erase = .ok (ofc 11 []) := ofc.erase hs.key
        simp only [e1, e2]
        have e3 := emit_conc (pushed s a .value) cons (pre ++ (a ++ c :: r))
        refine ⟨a.length + 1, { s with mode := .look, key := [], value := [] },
          [{ sect := s.sect, key := s.key, value := s.value ++ a }], ?_, by omega, by simp, ⟨hs.sect, by simp, by simp⟩, ?_⟩
        · exact congrArg (fun x => Except.ok (conc { s with mode := .look, key := [], value := [] } cons (pre ++ (a ++ c :: r)), x,
            pre.length + a.length + 1, false)) e3
        · rw [drop_tl, Reader.bytes_append, hby, Reader.bytes_cons]
          simp [Reader.byte, hm, hc]
    · rw [if_neg hfit] at hby
      rw [if_neg (show ¬(destOf s .value).length + a.length ≤ destCap .value from hfit)] at hf
      simp only [TextParser.processStep, hst, hch, hf, bind, Except.bind]
      have h11 := hs.value
      unfold maxValue at h11
      refine ⟨a.length, .failed, [Entry.error], by rfl, by omega, by simp, Reader.fits_failed, ?_⟩
      rw [Reader.bytes_append, hby]
      simp [Reader.bytes_failed]
  | .error =>
    have hst : (conc s cons (pre ++ rest)).state = .ERROR := by simp [conc, hm, stateOf]
    refine ⟨rest.length, s, [], ?_, List.length_pos_iff.mpr hne, Nat.le_refl _, hs, ?_⟩
    · simp only [TextParser.processStep, hst]
      simp [conc, ofc, toEvents]
    · simp [Reader.bytes_error s hm]

/-- The loop reads the rest. -/
theorem processLoop_conc (fuel : Nat) (s : Reader) (hs : s.Fits) (cons : Option Nat) (pre rest : List Byte)
    (hw : (pre ++ rest).length ≤ 31) (hfuel : rest.length < fuel) :
    TextParser.processLoop fuel (conc s cons (pre ++ rest)) pre.length =
      .ok (conc (s.bytes rest).1 cons (pre ++ rest), toEvents cons (s.bytes rest).2, (pre ++ rest).length) := by
  induction fuel generalizing s pre rest with
  | zero => omega
  | succ fuel ih =>
    have hlen : (conc s cons (pre ++ rest)).buffer.len = (pre ++ rest).length := rfl
    rw [TextParser.processLoop, hlen]
    by_cases hne : rest = []
    · subst hne
      rw [if_neg (by simp)]
      simp [Reader.bytes, toEvents]
    · have hp := List.length_pos_iff.mpr hne
      rw [if_pos (by simp; omega)]
      obtain ⟨k, s', es, h1, h2, h3, h4, h5⟩ := processStep_conc s hs cons pre rest hne hw
      have e : pre ++ rest = (pre ++ rest.take k) ++ rest.drop k := by simp
      have el : (pre ++ rest.take k).length = pre.length + k := by simp; omega
      have hi := ih s' h4 (pre ++ rest.take k) (rest.drop k) (by rw [← e]; exact hw) (by simp; omega)
      rw [← e, el] at hi
      simp only [h1, bind, Except.bind, hi]
      rw [h5, toEvents_append]
      rfl

/-- `addText` in every state a parser can be in. -/
theorem addText_conc (s : Reader) (hs : s.Fits) (cons : Option Nat) (input : BufferManager) (hi : BufOk input) :
    (conc s cons []).addText input =
      .ok (conc (s.chunk (content input)).1 cons [], toEvents cons (s.chunk (content input)).2) := by
  have hl : (content input).length = input.len := by
    rw [content, List.length_take]; have := hi.len_le; have := hi.mem_le; omega
  have hst : (conc s cons []).state = .ERROR ↔ s.mode = .error := by
    simp only [conc]; cases s.mode <;> simp [stateOf]
  unfold TextParser.addText Reader.chunk
  by_cases hc : (content input).length > maxChunk ∨ s.mode = .error
  · rw [if_pos hc, if_pos (by simp only [hl, maxChunk] at hc; simpa [TextParser.kBufferLength, hst] using hc)]
    exact report_conc s hs cons []
  · rw [if_neg hc, if_neg (by simp only [hl, maxChunk] at hc; simpa [TextParser.kBufferLength, hst] using hc)]
    simp only [hl, maxChunk, not_or] at hc
    unfold TextParser.loopFuel
    rw [TextParser.addLoop]
    by_cases h0 : input.len = 0
    · have hn : content input = [] := List.length_eq_zero_iff.mp (by omega)
      rw [if_neg (by omega), hn]
      simp [Reader.bytes, toEvents]
    · rw [if_pos (by omega)]
      have hfull : ((conc s cons []).buffer.full || decide ((conc s cons []).state = .ERROR)) = false := by
        rw [Bool.or_eq_false_iff]
        refine ⟨(show (ofc 31 []).full = false by decide), ?_⟩
        rw [decide_eq_false_iff_not, hst]
        exact hc.2
      rw [hfull]
      simp only [Bool.false_eq_true, if_false]
      have hview := C28_from input hi 0
      have hvok := (C28_view input hi 0 input.len).2.2.1
      have hpush := ofc.push_back (cap := 31) (c := []) (by simp) (by omega) (input.subBufferManagerFrom 0)
        (Nat.le_trans hvok.len_le hvok.mem_le)
      rw [hview, List.drop_zero, List.nil_append, List.length_nil, Nat.sub_zero, hl, Nat.min_eq_right (by omega),
        List.take_of_length_le (by omega)] at hpush
      have hb : (conc s cons []).buffer = ofc 31 [] := rfl
      simp only [hb, hpush, bind, Except.bind]
      have hp : TextParser.processBuffer { conc s cons [] with buffer := ofc 31 (content input) } =
          .ok (conc (s.bytes (content input)).1 cons (content input), toEvents cons (s.bytes (content input)).2,
            (content input).length) :=
        processLoop_conc TextParser.loopFuel s hs cons [] (content input) (by simp; omega) (by
          unfold TextParser.loopFuel; omega)
      simp only [hp]
      have hb2 : ∀ s', (conc s' cons (content input)).buffer = ofc 31 (content input) := fun _ => rfl
      have hpop := ofc.pop_front (cap := 31) (c := content input) (by omega) (by omega) (content input).length
      rw [List.drop_length] at hpop
      simp only [hb2, hpop]
      have hu : u8 (0 + input.len) = input.len := by simp only [u8]; omega
      rw [hu, TextParser.addLoop, if_neg (by omega)]
      simp only [List.append_nil]
      rfl

end RR32
