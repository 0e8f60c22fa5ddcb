import Verif.Model.TextParser
import Verif.Tests.ConfigData

/-!
# The repository's unit tests, run on the model: BufferManager and TextParser

Pointer comparisons of the tests (`subMgr.data() == mgr->data() + k`) become comparisons of the memory from there on.
-/

set_option autoImplicit false

namespace RR32.Tests

/-- The result is a value with the property. -/
def passes {α : Type} (r : Res α) (p : α → Bool) : Bool :=
  match r with
  | .ok a => p a
  | .error _ => false

/-! ## test/RR32Can/BufferManagerTest.cpp -/

/-- `BufferManagerFixture::SetUp`, test/RR32Can/BufferManagerTest.cpp:11-14 -/
def fresh : BufferManager := BufferManager.construct (List.replicate 16 0#8) 16

/-- `mgr->set(text)` on it -/
def holding (text : String) : Res BufferManager := fresh.set (lit text)

/-- `EXPECT_STREQ(text, mgr->data())` -/
def streq (b : BufferManager) (s : String) : Bool := (cstr b.mem).toOption == some (str s)

/-- test/RR32Can/BufferManagerTest.cpp:41-48 -/
theorem BufferManager_initialized :
    fresh.empty = true ∧ fresh.full = false ∧ fresh.cap = 16 ∧ fresh.capacity_remaining = 16 ∧ fresh.len = 0 := by decide +kernel

/-- test/RR32Can/BufferManagerTest.cpp:50-118: text set, text read back, length. -/
theorem BufferManager_set_and_get :
    ∀ t ∈ [("Testdaten", "Testdaten", 9), ("TestdatenTestda", "TestdatenTestda", 15), ("TestdatenTestdat", "TestdatenTestda", 15),
           ("TestdatenTestdate", "TestdatenTestda", 15)],
      passes (holding t.1) (fun b => streq b t.2.1 && b.len == t.2.2 && b.capacity_remaining == 16 - t.2.2 && b.cap == 16 &&
        !b.empty && !b.full) = true := by decide +kernel

/-- test/RR32Can/BufferManagerTest.cpp:120-142: number of bytes removed, length, text left. -/
theorem BufferManager_pop_front :
    ∀ t ∈ [(3, 7, "3456789"), (10, 0, ""), (11, 0, ""), (20, 0, "")],
      passes (holding "0123456789" >>= fun b => b.pop_front t.1) (fun b => b.len == t.2.1 && streq b t.2.2) = true := by decide +kernel

/-- test/RR32Can/BufferManagerTest.cpp:144-168 -/
theorem BufferManager_index :
    ∀ i < 10, passes (holding "0123456789" >>= fun b => b.get i) (fun c => c == BitVec.ofNat 8 (48 + i)) = true := by decide +kernel

/-- test/RR32Can/BufferManagerTest.cpp:170-186 -/
theorem BufferManager_at_write :
    passes (do
      let b ← holding "0123456789"
      let b1 ← b.setAt 0 (ch 'a')
      let b2 ← b1.setAt 5 (ch 'f')
      let b3 ← b2.setAt 9 (ch 'j')
      let b4 ← b3.setAt 10 (ch 'k')
      .ok [(b1, "a123456789"), (b2, "a1234f6789"), (b3, "a1234f678j"), (b4, "a1234f678k")])
      (fun l => l.all fun x => streq x.1 x.2 && x.1.len == 10) = true := by decide +kernel

/-- test/RR32Can/BufferManagerTest.cpp:188-197 -/
theorem BufferManager_push_back :
    passes (do (← holding "0123456789").push_back (← holding "abcdefghij"))
      (fun r => r.2 == 6 && r.1.full && r.1.len == 16 && r.1.mem == str "0123456789abcdef") = true := by decide +kernel

/-- test/RR32Can/BufferManagerTest.cpp:199-205 -/
theorem BufferManager_push_back_self :
    passes (do (← holding "0123456789").push_back (← holding "0123456789"))
      (fun r => r.2 == 6 && r.1.full && r.1.len == 16 && r.1.mem == str "0123456789012345") = true := by decide +kernel

/-- test/RR32Can/BufferManagerTest.cpp:207-216 -/
theorem BufferManager_move_back :
    passes (do (← holding "0123456789").move_back (← holding "abcdefghij"))
      (fun r => r.1.full && r.1.len == 16 && r.1.mem == str "0123456789abcdef" && r.2.1.len == 4 && streq r.2.1 "ghij") = true := by
  decide +kernel

/-- test/RR32Can/BufferManagerTest.cpp:218-225 -/
theorem BufferManager_erase :
    passes (do (← holding "0123456789").erase) (fun b => b.empty && b.len == 0 && b.mem == List.replicate 16 0#8) = true := by decide +kernel

/-- test/RR32Can/BufferManagerTest.cpp:227-290: digit `i` is found where it stands if the search starts no later. -/
theorem BufferManager_find_first_of :
    ∀ off ∈ [0, 5, 9, 10], ∀ i < 10,
      passes (holding "0123456789" >>= fun b => b.findFirstOfChar (BitVec.ofNat 8 (48 + i)) off)
        (fun n => n == if off ≤ i then i else BufferManager.npos) = true := by decide +kernel

/-- test/RR32Can/BufferManagerTest.cpp:292-322: characters, start of the search, position found. -/
theorem BufferManager_multi_find_first_of :
    ∀ t ∈ [("0123", 0, 0), ("123", 0, 1), ("3210", 0, 0), ("4", 0, 4), ("4567", 0, 4), ("567", 0, 5), ("7645", 0, 4),
           ("0123", 4, 255), ("123", 4, 255), ("3210", 4, 255), ("4", 4, 4)],
      passes (holding "0123456789" >>= fun b => b.findFirstOf (lit t.1) t.2.1) (fun n => n == t.2.2) = true := by decide +kernel

/-- test/RR32Can/BufferManagerTest.cpp:324-348 -/
theorem BufferManager_multi_find_first_of_end :
    ∀ off ∈ [9, 10], ∀ i < 10,
      passes (holding "0123456789" >>= fun b => b.findFirstOf [BitVec.ofNat 8 (48 + i), 0#8] off)
        (fun n => n == if off ≤ i then i else BufferManager.npos) = true := by decide +kernel

/-- test/RR32Can/BufferManagerTest.cpp:350-411: offset, where the view starts, its length, its capacity. -/
theorem BufferManager_subBuffer_offset :
    ∀ t ∈ [(0, 0, 10, 16), (1, 1, 9, 15), (5, 5, 5, 11), (9, 9, 1, 7), (10, 10, 0, 6), (11, 11, 0, 5), (15, 15, 0, 1), (16, 16, 0, 0),
           (17, 16, 0, 0)],
      passes (holding "0123456789") (fun b => decide (b.subBufferManagerFrom t.1 = ⟨b.mem.drop t.2.1, t.2.2.1, t.2.2.2⟩)) = true := by
  decide +kernel

/-- test/RR32Can/BufferManagerTest.cpp:413-432 -/
theorem BufferManager_subBuffer_offset_len :
    ∀ t ∈ [(8, 3), (10, 5), (3, 0)],
      passes (holding "0123456789") (fun b => decide (b.subBufferManager 5 t.1 = ⟨b.mem.drop 5, t.2, 11⟩)) = true := by decide +kernel

/-! ## test/RR32Can/TextParserTest.cpp -/

/-- `TextParserFixture`, test/RR32Can/TextParserTest.cpp:21-33: a new parser whose consumer is the mock, object 0. The arrays hold
anything before the constructor runs; here 0xAA. -/
def parser : Res TextParser := do
  let p ← TextParser.construct (List.replicate 31 0xAA#8) (List.replicate 11 0xAA#8) (List.replicate 11 0xAA#8) (List.replicate 26 0xAA#8)
  .ok (p.setConsumer (some 0))

/-- A C string read from memory, if it ends. -/
def text (m : List Byte) : Option (List Byte) := (cstr m).toOption

/-- The three C strings the mock is given (test/RR32Can/TextParserTest.cpp:16-18), for each call. -/
def given (evs : List ParseEvent) : List (Option (List Byte) × Option (List Byte) × Option (List Byte)) :=
  evs.map fun e => (text e.sect.mem, text e.key.mem, text e.value.mem)

/-- `EXPECT_CALL(*mock, mocked_method(StrEq(section), StrEq(key), StrEq(value)))` -/
def call (sect key value : String) :
    Option (List Byte) × Option (List Byte) × Option (List Byte) := (some (str sect), some (str key), some (str value))

/-- A `BufferManager` on a string literal, as in test/RR32Can/TextParserTest.cpp:45-46. -/
def input (s : String) : BufferManager := ⟨lit s, (str s).length, (str s).length⟩

/-- The tests' loop over chunks: `addText` on each, all calls made. -/
def addAll (p : TextParser) (chunks : List BufferManager) : Res (TextParser × List ParseEvent) :=
  chunks.foldlM (fun r c => do
    let (p, evs) ← r.1.addText c
    .ok (p, r.2 ++ evs)) (p, [])

/-- test/RR32Can/TextParserTest.cpp:30,35-40 -/
theorem TextParser_reportError :
    passes parser (fun p => decide (p.state = .LOOKING_FOR_KEY_OR_SECTION_START)) = true ∧
    passes (parser >>= fun p => p.reportParseError) (fun r => decide (given r.2 = [call "ERROR" "ERROR" "ERROR"] ∧ r.1.state = .ERROR)) = true := by
  decide +kernel

/-- test/RR32Can/TextParserTest.cpp:42-56 -/
theorem TextParser_oversized_data :
    passes (parser >>= fun p => p.addText (input "This data is muuuuuuch too long to fit into the input buffer."))
      (fun r => decide (given r.2 = [call "ERROR" "ERROR" "ERROR"] ∧ r.1.state = .ERROR)) = true := by decide +kernel

/-- test/RR32Can/TextParserTest.cpp:58-72 -/
theorem TextParser_oversized_data_exact :
    (input "This data is muuuuuuch too lon").len = TextParser.kBufferLength ∧
    passes (parser >>= fun p => p.addText (input "This data is muuuuuuch too lon"))
      (fun r => decide (given r.2 = [] ∧ r.1.state = .LOOKING_FOR_KEY_OR_SECTION_START)) = true := by decide +kernel

/-- test/RR32Can/TextParserTest.cpp:74-88 -/
theorem TextParser_oversized_data_plusone :
    (input "This data is muuuuuuch too long").len = TextParser.kBufferLength + 1 ∧
    passes (parser >>= fun p => p.addText (input "This data is muuuuuuch too long"))
      (fun r => decide (given r.2 = [call "ERROR" "ERROR" "ERROR"] ∧ r.1.state = .ERROR)) = true := by decide +kernel

/-- test/RR32Can/TextParserTest.cpp:90-132 -/
theorem TextParser_FindToken_01 :
    passes (do
      let p ← (← parser).reset
      let b ← p.buffer.push_back (input "[lokname")
      let r1 ← { p with buffer := b.1 }.findToken 0 TextParser.kKeyOrSectionStart .null
      let p ← r1.1.reset
      let b ← p.buffer.push_back (input "[lokname")
      let r2 ← { p with buffer := b.1 }.findToken 1 TextParser.kSectionStop .sect
      let b ← (← r2.1.buffer.erase).push_back (input "n]\n  .we")
      let r3 ← { r2.1 with buffer := b.1 }.findToken 0 TextParser.kSectionStop .sect
      .ok (r1, r2, r3))
      (fun (r1, r2, r3) =>
        r1.2.2.success && r1.2.2.consumed == 1 && r1.1.sect.empty && r1.1.key.empty && r1.1.value.empty &&
        !r2.2.2.success && r2.2.2.consumed == 8 && !r2.1.sect.empty && r2.1.key.empty && r2.1.value.empty &&
        r3.2.2.success && r3.2.2.consumed == 2 && streq r3.1.sect "loknamen" && r3.1.key.empty && r3.1.value.empty) = true := by
  decide +kernel

/-- test/RR32Can/TextParserTest.cpp:134-157: the calls, here also in order. -/
theorem TextParser_testData1 :
    passes (do addAll (← parser) (testData1.map fun c => ⟨c, ((text c).getD []).length, ((text c).getD []).length⟩))
      (fun r => decide (given r.2 = [call "loknamen" "wert" "BR 96 1234", call "loknamen" "wert" "ET 515", call "numloks" "wert" "12"] ∧
        r.1.state = .LOOKING_FOR_KEY_OR_SECTION_START)) = true := by decide +kernel

/-- The calls expected for one function of an engine, test/RR32Can/TextParserTest.cpp:193-208. -/
def function (typ : String) : List (Option (List Byte) × Option (List Byte) × Option (List Byte)) :=
  [call "lokomotive" "fkt" "", call "lokomotive" ".typ" typ, call "lokomotive" ".dauer" "0", call "lokomotive" ".wert" "0"]

/-- test/RR32Can/TextParserTest.cpp:159-224: the calls, here also in order. -/
theorem TextParser_testData2 :
    passes (do addAll (← parser) (testData2.map fun c => ⟨c, 8, 8⟩))
      (fun r => decide (given r.2 =
          [call "lokomotive" "uid" "0xc00a", call "lokomotive" "name" "98 1001", call "lokomotive" "adresse" "0xa",
           call "lokomotive" "typ" "dcc", call "lokomotive" "mfxuid" "0x1", call "lokomotive" "symbol" "22",
           call "lokomotive" "symbol" "22", call "lokomotive" "av" "60", call "lokomotive" "bv" "40", call "lokomotive" "volume" "100",
           call "lokomotive" "velocity" "0", call "lokomotive" "richtung" "0", call "lokomotive" "vmax" "255",
           call "lokomotive" "vmin" "13"] ++
          (["4", "51", "52", "53", "8"] ++ List.replicate 11 "0").flatMap function ∧
        r.1.state = .LOOKING_FOR_KEY_OR_SECTION_START)) = true := by decide +kernel

end RR32.Tests
