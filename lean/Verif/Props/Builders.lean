import Verif.Props.Browse
import Verif.Props.Packets
import Verif.Proofs.Console

/-! # C88: both sides of a download can be built from the library -/

set_option autoImplicit false

namespace RR32

open Spec

/-- A master that sends a stream with the frame builders, as test/integration/EngineLibraryTest.cpp:73-82 does: the text is cut into pieces of
eight characters (`char[8]` there; longer arrays are sent up to the eighth character). -/
def built (chunks : List (List Byte)) (crc : U16) : Res (List CanFrame) := do
  let rest ← chunks.mapM Util.Config_Data_Stream_Data
  .ok (Util.Config_Data_Stream_First (BitVec.ofNat 32 (8 * chunks.length)) crc :: rest)

theorem data_frames (chunks : List (List Byte)) (h : ∀ c ∈ chunks, 8 ≤ c.length) : ∃ rest, chunks.mapM Util.Config_Data_Stream_Data = .ok rest ∧
    (∀ f ∈ rest, commandOf f = 0x21) ∧ AreData (rest.map (·.data)) ∧ payload (rest.map (·.data)) = chunks.flatMap (·.take 8) ∧
    rest.length = chunks.length := by
  induction chunks with
  | nil => exact ⟨[], rfl, (by intro f hf; cases hf), (by intro d hd; cases hd), rfl, rfl⟩
  | cons c cs ih =>
    obtain ⟨rest, h1, h2, h3, h4, h5⟩ := ih (fun x hx => h x (List.mem_cons_of_mem _ hx))
    obtain ⟨f, g1, g2, g3⟩ := C10_stream_data c (h c (List.mem_cons_self ..))
    refine ⟨f :: rest, ?_, ?_, ?_, ?_, ?_⟩
    · simp only [List.mapM_cons, g1, h1, bind, Except.bind, pure, Except.pure]
    · intro x hx
      rcases List.mem_cons.mp hx with rfl | hx
      · unfold commandOf
        rw [g2.raw]
        rfl
      · exact h2 x hx
    · intro x hx
      rw [List.map_cons] at hx
      rcases List.mem_cons.mp hx with rfl | hx
      · exact g2.length
      · exact h3 x hx
    · rw [List.map_cons, payload_cons, h4, List.flatMap_cons, ← g3]
      rfl
    · rw [List.length_cons, List.length_cons, h5]

theorem first_length (n : U32) (crc : U16) : announcedLength (Util.Config_Data_Stream_First n crc).data = n.toNat := by
  have := n.isLt
  unfold announcedLength Util.Config_Data_Stream_First
  simp only [BitVec.truncate_eq_setWidth, BitVec.toNat_setWidth, toNat_shr]
  omega

/-- C88, the answer: a text cut into pieces of eight characters and sent with the frame builders, with the right checksum, is a stream as
every receiver expects it (C49, C51). -/
theorem C88_stream (chunks : List (List Byte)) (crc : U16) (items : List Item) (tail : Tail) (h8 : ∀ c ∈ chunks, 8 ≤ c.length) (hne : chunks ≠ [])
    (hlen : 8 * chunks.length < 2 ^ 32) (hcrc : IsCrcOf crc (chunks.flatMap (·.take 8))) (hw : ∀ i ∈ items, i.WellFormed)
    (hf : ∀ i ∈ items, i.Fits) (htw : tail.WellFormed) (htf : tail.Fits) (hp : chunks.flatMap (·.take 8) = render items ++ tail.render) :
    ∃ first rest, built chunks crc = .ok (first :: rest) ∧ WireStream first rest items tail := by
  obtain ⟨rest, h1, h2, h3, h4, h5⟩ := data_frames chunks h8
  obtain ⟨g1, g2, g3⟩ := C10_stream_first (BitVec.ofNat 32 (8 * chunks.length)) crc
  refine ⟨_, rest, by simp only [built, h1, bind, Except.bind], ?_, Or.inl g1.length, h3, ?_, ?_, ?_, hw, hf, htw, htf, ?_⟩
  · intro f hf
    rcases List.mem_cons.mp hf with rfl | hf
    · unfold commandOf
      rw [g1.raw]
      rfl
    · exact h2 f hf
  · rintro rfl
    exact hne (List.eq_nil_of_length_eq_zero h5.symm)
  · rw [h5]
    rw [first_length, BitVec.toNat_ofNat, Nat.mod_eq_of_lt hlen]
  · rw [h4]
    have : announcedCrc (Util.Config_Data_Stream_First (BitVec.ofNat 32 (8 * chunks.length)) crc).data = crc := by
      unfold announcedCrc
      rw [g3, BitVec.ofNat_toNat, BitVec.setWidth_eq]
    rw [this]
    exact hcrc
  · rw [h4, hp]

/-- The checksum of pieces with the class `Crc`: `reset()`, `updateCrc` for the eight characters of every piece, `getCrc()`. -/
def checksum (chunks : List (List Byte)) : U16 := (chunks.foldl (fun c piece => (piece.take 8).foldl Crc.updateCrc c) Crc.reset).getCrc

/-- C88: the class `Crc` computes the checksum that goes into the first frame. -/
theorem C88_checksum (chunks : List (List Byte)) : IsCrcOf (checksum chunks) (chunks.flatMap (·.take 8)) := by
  have : checksum chunks = crcOf (chunks.flatMap (·.take 8)) := by
    unfold checksum crcOf crcFrom Crc.getCrc
    rw [List.foldl_flatMap]
  unfold IsCrcOf
  rw [this]
  exact C29_crc _

/-- C88, the whole answer: the pieces, with the length and the checksum computed from them. -/
theorem C88_document (chunks : List (List Byte)) (items : List Item) (tail : Tail) (h8 : ∀ c ∈ chunks, 8 ≤ c.length) (hne : chunks ≠ [])
    (hlen : 8 * chunks.length < 2 ^ 32) (hw : ∀ i ∈ items, i.WellFormed) (hf : ∀ i ∈ items, i.Fits) (htw : tail.WellFormed) (htf : tail.Fits)
    (hp : chunks.flatMap (·.take 8) = render items ++ tail.render) :
    ∃ first rest, built chunks (checksum chunks) = .ok (first :: rest) ∧ WireStream first rest items tail :=
  C88_stream chunks _ items tail h8 hne hlen (C88_checksum chunks) hw hf htw htf hp

/-- The pieces of a stream. -/
def chunksOf (rest : List CanFrame) : List (List Byte) := rest.map (fun f => f.data.bytes.take 8 ++ [0#8])

/-- C88: every stream can be sent with the frame builders. -/
theorem C88_any (first : CanFrame) (rest : List CanFrame) (items : List Item) (tail : Tail) (h : WireStream first rest items tail) :
    ∃ first' rest', built (chunksOf rest) (checksum (chunksOf rest)) = .ok (first' :: rest') ∧ WireStream first' rest' items tail := by
  have hp : (chunksOf rest).flatMap (·.take 8) = payload (rest.map (·.data)) := by
    unfold chunksOf payload
    rw [List.flatMap_map, List.flatMap_map]
    rfl
  refine C88_document _ items tail ?_ ?_ ?_ h.wellFormed h.fits h.tailWellFormed h.tailFits ?_
  · intro c hc
    obtain ⟨f, -, rfl⟩ := List.mem_map.mp hc
    simp [Data.bytes]
  · intro hn
    exact h.nonempty (List.map_eq_nil_iff.mp hn)
  · have h1 := h.length
    unfold chunksOf
    rw [List.length_map, ← h1]
    unfold announcedLength
    have := first.data.b0.isLt
    have := first.data.b1.isLt
    have := first.data.b2.isLt
    have := first.data.b3.isLt
    omega
  · rw [hp]; exact h.payload

/-- C88: so a master that uses the library can answer every request for what is in its database. -/
theorem C88_master (db : List EngineRecord) (hdb : db.length ≤ 255) (hv : ∀ r ∈ db, r.Valid) (fs : List CanFrame) (q : Asked)
    (hq : asked fs = some q) (hin : (∃ o, q = .names o 2) ∨ ∃ r ∈ db, q = .engine r.name) :
    ∃ chunks first rest, built chunks (checksum chunks) = .ok (first :: rest) ∧ Replies db fs first rest := by
  obtain ⟨f, r, q', items, tail, h1, h2, h3⟩ := reply_exists db hdb hv fs q hq hin
  obtain ⟨first, rest, g1, g2⟩ := C88_any f r items tail h2
  exact ⟨_, first, rest, g1, q', items, tail, h1, g2, h3⟩

/-! ## Requests -/

/-- The frame with the hash of a station. -/
def stamped (f : CanFrame) (hash : U16) : CanFrame := { f with id := f.id.setHash hash }

theorem sent_stamped {f g : CanFrame} {hash : U16} {dlc : Nat} (hs : SentFrame f hash 0x20 dlc) (hb : BuiltFrame g 0x20 false dlc)
    (hd : f.data.bytes.take dlc = g.data.bytes.take dlc) : f.eq (stamped g hash) = .ok true := by
  have h1 : f.id.raw = (g.id.setHash hash).raw := by
    apply BitVec.eq_of_toNat_eq
    rw [hs.raw]
    have : g.id.raw = 0x400000#32 := by
      apply BitVec.eq_of_toNat_eq
      rw [hb.raw]
      rfl
    simp only [Identifier.setHash, this, Identifier.kHashBitMask]
    have := hash.isLt
    rw [show (0x400000#32 &&& ~~~0xFFFF#32) = 0x400000#32 by decide, BitVec.toNat_or, show BitVec.zeroExtend 32 hash = hash.setWidth 32 from rfl,
      BitVec.toNat_setWidth, Nat.mod_eq_of_lt (by omega), show (0x400000#32).toNat = 2 ^ 16 * 64 by decide, ← Nat.two_pow_add_eq_or_of_lt this]
    rfl
  have hl : f.data.dlc = g.data.dlc := BitVec.eq_of_toNat_eq (hs.length.trans hb.length.symm)
  have hle : f.data.dlc.toNat ≤ 9 := by have := hs.length; have := hs.length_le; omega
  obtain ⟨r, g1, g2⟩ := C03_frame_eq f (stamped g hash) hle
  obtain ⟨s, g3, g4⟩ := C03_payload_eq f.data g.data hle
  have : s = true := g4.mpr ⟨hl, fun i hi => by
    rw [hs.length] at hi
    rw [← List.getElem?_take_of_lt hi, hd, List.getElem?_take_of_lt hi]⟩
  subst this
  rw [g1, g2.mpr ⟨h1, g3⟩]

/-- A request frame of the builder with a given length: the text, padded with zeros. -/
theorem request_len (text rest : List Byte) (hn : NoNul text) (n : Nat) (h8 : n ≤ 8) (h : text.length ≤ n) :
    ∃ f, Util.Request_Config_Data_Len (text ++ 0#8 :: rest) (BitVec.ofNat 8 n) = .ok f ∧ BuiltFrame f 0x20 false n ∧
      f.data.bytes = text ++ List.replicate (9 - text.length) 0#8 := by
  have nine : ∀ (l : List Byte) (_ : l.length = 9) (d : Data), (d.withBytes l).bytes = l := by
    intro l h d
    match l, h with
    | [_, _, _, _, _, _, _, _, _], _ => rfl
  have hb : ({ dlc := Util.limitToCANDataLength (BitVec.ofNat 8 n) } : Data).bytes = List.replicate 9 0#8 := rfl
  have ht : (text.take 9 : List Byte) = text := List.take_of_length_le (by omega)
  have hl : (text ++ List.replicate (9 - text.length) 0#8 : List Byte).length = 9 := by simp; omega
  have hbytes : ∀ d : Data, (d.withBytes (text.take 9 ++ List.replicate (9 - text.length) 0#8 ++ (List.replicate 9 0#8).drop 9)).bytes =
      text ++ List.replicate (9 - text.length) 0#8 := by
    intro d
    rw [List.drop_replicate, ht, nine _ (by simpa using hl)]
    simp
  refine ⟨_, by
    simp only [Util.Request_Config_Data_Len, bind, Except.bind, Data.kDataBufferLength, CanDataMaxLength]
    rw [strncpy_eq _ _ text rest hn (by rw [hb]; simp)], ?_, ?_⟩
  · refine builtFrame_intro (by decide) rfl ?_ h8 ?_
    · simp only [Data.withBytes, Util.limitToCANDataLength, GT.gt, BitVec.lt_def, BitVec.toNat_ofNat]
      rw [if_neg (by omega)]
      simp; omega
    · simp only [hb]
      rw [hbytes, List.drop_append, List.drop_eq_nil_of_le h, List.nil_append, List.drop_replicate]
      congr 1
      omega
  · simp only [hb]
    exact hbytes _

/-- C88, the list request: the frames that a station sends are those of the builders for `"loknamen"` and the position, with the station's
hash (test/integration/StationTest.cpp:33-34 expects them for position 0). -/
theorem C88_request_list (s : Station) (cb : Nat) (htx : s.callbacks.tx = some cb) (offset : Byte) (parser : Option Nat) :
    ∃ f1 f2 g1 g2, s.RequestEngineList offset parser =
        .ok ({ s with callbacks := { s.callbacks with configData := parser } },
             s.callbacks.configData.toList.map .cfgReset ++ parser.toList.map .cfgStart ++ [.tx cb f1, .tx cb f2]) ∧
      Util.Request_Config_Data (str "loknamen" ++ [0#8]) = .ok g1 ∧ f1.eq (stamped g1 s.senderHash) = .ok true ∧
      Util.Request_Config_Data (str (toString offset.toNat ++ " 2") ++ [0#8]) = .ok g2 ∧ f2.eq (stamped g2 s.senderHash) = .ok true := by
  obtain ⟨f1, f2, h1, h2, h3, h4, h5⟩ := C20_request_engine_list s cb htx offset parser
  have hn : NoNul (str (toString offset.toNat ++ " 2")) := by
    intro b hb
    simp only [str, String.toList_append, List.map_append, List.mem_append, List.mem_map] at hb
    rcases hb with ⟨c, hc, rfl⟩ | ⟨c, hc, rfl⟩
    · have hc' : ch c ∈ decText offset.toNat := by
        rw [decText_str]
        exact List.mem_map_of_mem hc
      intro h0
      have := (decText_chars offset.toNat _ hc').1
      rw [h0] at this
      exact absurd this (by decide)
    · have : ∀ c ∈ " 2".toList, ch c ≠ 0#8 := by decide
      exact this c hc
  obtain ⟨g1, k1, k2, k3⟩ := C10_request_partial (str "loknamen") [] (by decide) (by decide)
  obtain ⟨g2, k4, k5, k6⟩ := C10_request_partial (str (toString offset.toNat ++ " 2")) [] hn h4.length_le
  refine ⟨f1, f2, g1, g2, h1, k1, sent_stamped h2 k2 (h3.trans k3.symm), k4, sent_stamped h4 k5 ?_⟩
  rw [k6, h5, List.take_left]

/-- C88, the engine request: the frames are those of the builders for `"lokinfo"` and the two halves of the name, each with length 8, with the
station's hash (test/integration/EngineLibraryTest.cpp:49-51 expects them for one name). -/
theorem C88_request_engine (s : Station) (cb : Nat) (htx : s.callbacks.tx = some cb) (processing : Bool) (engine : ShortInfo)
    (parser : Option Nat) (text rest : List Byte) (hname : engine.name = text ++ 0#8 :: rest) (hn : NoNul text)
    (hk : engine.isNameKnown = true) (hp : s.callbacks.configData = none ∨ processing = false) :
    ∃ f1 f2 f3 g1 g2 g3, s.RequestEngine processing engine parser =
        .ok ({ s with callbacks := { s.callbacks with configData := parser } },
             s.callbacks.configData.toList.map .cfgReset ++ parser.toList.map .cfgStart ++
               [.tx cb f1, .tx cb f2, .tx cb f3]) ∧
      Util.Request_Config_Data_Len (str "lokinfo" ++ [0#8]) 8#8 = .ok g1 ∧ f1.eq (stamped g1 s.senderHash) = .ok true ∧
      Util.Request_Config_Data_Len (text.take 8 ++ [0#8]) 8#8 = .ok g2 ∧ f2.eq (stamped g2 s.senderHash) = .ok true ∧
      Util.Request_Config_Data_Len ((text.drop 8).take 8 ++ [0#8]) 8#8 = .ok g3 ∧ f3.eq (stamped g3 s.senderHash) = .ok true := by
  obtain ⟨f1, f2, f3, h1, h2, h3, h4, h5, h6, h7⟩ := C21_request_engine s cb htx processing engine parser text rest hname hn hk hp
  obtain ⟨g1, k1, k2, k3⟩ := request_len (str "lokinfo") [] (by decide) 8 (Nat.le_refl _) (by decide)
  obtain ⟨g2, k4, k5, k6⟩ := request_len (text.take 8) [] (hn.take 8) 8 (Nat.le_refl _) (List.length_take_le ..)
  obtain ⟨g3, k7, k8, k9⟩ := request_len ((text.drop 8).take 8) [] (fun b hb => hn b (List.mem_of_mem_drop (List.mem_of_mem_take hb))) 8 (Nat.le_refl _)
    (List.length_take_le ..)
  refine ⟨f1, f2, f3, g1, g2, g3, h1, k1, sent_stamped h2 k2 ?_, k4, sent_stamped h4 k5 ?_, k7, sent_stamped h6 k8 ?_⟩
  · rw [h3, k3]; rfl
  · rw [h5, k6]
    unfold paddedName
    apply List.ext_getElem?
    intro i
    simp only [List.getElem?_take, List.getElem?_append, List.getElem?_replicate, List.length_take]
    grind
  · rw [h7, k9]
    unfold paddedName
    apply List.ext_getElem?
    intro i
    simp only [List.getElem?_take, List.getElem?_drop, List.getElem?_append, List.getElem?_replicate, List.length_take, List.length_drop]
    grind

/-! ## Cases -/

/-- The requests of test/integration/EngineLibraryTest.cpp:31-63: a station asks for the engine "98 1001". -/
example : ∃ f1 f2 f3 g3, (({ callbacks := { tx := some 4 } } : Station).RequestEngine false
      { availability := .NAME_KNOWN, name := str "98 1001" ++ List.replicate 26 0#8 } (some 7)).map (·.2) = .ok [.cfgStart 7, .tx 4 f1, .tx 4 f2, .tx 4 f3] ∧
    Util.Request_Config_Data_Len (str "" ++ [0#8]) 8#8 = .ok g3 ∧ f3.eq (stamped g3 ({} : Station).senderHash) = .ok true := by
  obtain ⟨f1, f2, f3, g1, g2, g3, h1, -, -, -, -, h2, h3⟩ := C88_request_engine { callbacks := { tx := some 4 } } 4 rfl false
    { availability := .NAME_KNOWN, name := str "98 1001" ++ List.replicate 26 0#8 } (some 7) (str "98 1001") (List.replicate 25 0#8) (by decide) (by decide) (by decide) (Or.inl rfl)
  exact ⟨f1, f2, f3, g3, by rw [h1]; rfl, h2, h3⟩

/-- The list of the master of the cases of C82, from position 1, sent with the frame builders. -/
example : ∃ fs chunks first rest, built chunks (checksum chunks) = .ok (first :: rest) ∧ Replies caseMaster fs first rest ∧ asked fs = some (.names 1 2) := by
  obtain ⟨f1, h1⟩ : ∃ f, Util.Request_Config_Data (str "loknamen" ++ [0#8]) = .ok f := ⟨_, rfl⟩
  obtain ⟨f2, h2⟩ : ∃ f, Util.Request_Config_Data (str "1 2" ++ [0#8]) = .ok f := ⟨_, rfl⟩
  have hq : asked [f1, f2] = some (.names 1 2) := by
    cases h1; cases h2
    decide +kernel
  obtain ⟨chunks, first, rest, h, h'⟩ := C88_master caseMaster (by decide) caseMaster_valid [f1, f2] _ hq (Or.inl ⟨_, rfl⟩)
  exact ⟨_, chunks, first, rest, h, h', hq⟩

end RR32
