import Verif.Proofs.Send

/-! # C16, C18 to C23: sending and requesting -/

set_option autoImplicit false

namespace RR32

/-! ## C20 -/

/-- An engine list request, for every offset and every station with a transmit callback: reset the old consumer, register the new one,
start it, and only then send `loknamen` and the decimal offset followed by ` 2`, padded with zeros. -/
theorem C20_request_engine_list (s : Station) (cb : Nat) (htx : s.callbacks.tx = some cb) (offset : Byte) (parser : Option Nat) :
    ∃ f1 f2, s.RequestEngineList offset parser =
        .ok ({ s with callbacks := { s.callbacks with configData := parser } },
             s.callbacks.configData.toList.map .cfgReset ++ parser.toList.map .cfgStart ++ [.tx cb f1, .tx cb f2]) ∧
      SentFrame f1 s.senderHash 0x20 8 ∧ f1.data.bytes.take 8 = str "loknamen" ∧
      SentFrame f2 s.senderHash 0x20 (str (toString offset.toNat ++ " 2")).length ∧
      f2.data.bytes = str (toString offset.toNat ++ " 2") ++ List.replicate (9 - (str (toString offset.toNat ++ " 2")).length) 0#8 := by
  have hraw : (Identifier.mk' kRequestConfigData s.senderHash).raw.toNat = 0x20 * 2 ^ 17 + s.senderHash.toNat :=
    C01_construct _ _
  have htext : Station.engineListText offset = str (toString offset.toNat ++ " 2") := by
    simp only [Station.engineListText, decText_str, str, String.toList_append, List.map_append, List.append_assoc,
      kNumEngineNamesDownload]
    rw [show ([ch ' '] ++ List.map ch (toString 2).toList) = List.map ch " 2".toList by decide]
  have hlen : (Station.engineListText offset).length ≤ 5 := by
    have h1 := decText_length_le offset.toNat 3 (by decide) (by have := offset.isLt; omega)
    have h2 := decText_length_le 2 1 (by decide) (by decide)
    simp only [Station.engineListText, List.length_append, List.length_cons, List.length_nil, kNumEngineNamesDownload]
    omega
  rw [← htext]
  generalize hgt : Station.engineListText offset = t at hlen
  have e1 : ∀ d : Data, d.bytes.length = 9 := fun _ => rfl
  have hn1 : strncpy ({ dlc := 8#8 } : Data).bytes kEngineNames Data.kDataBufferLength = .ok (str "loknamen" ++ [0#8]) := by decide
  have ht : (t.take 8 ++ [0#8]).length ≤ 9 := by simp
  have htt : t.take 8 = t := List.take_of_length_le (by omega)
  have ht' : (t ++ [0#8]).length ≤ ({} : Data).bytes.length := by rw [htt] at ht; exact ht
  have hn2 : snprintf ({} : Data).bytes Data.kDataBufferLength t = .ok (t ++ List.replicate (9 - t.length) 0#8, t.length) := by
    have hb : ({} : Data).bytes = List.replicate 9 0#8 := rfl
    have h9 : Data.kDataBufferLength = 9 := rfl
    simp only [snprintf, h9, bind, Except.bind]
    rw [if_neg (by decide), htt, poke_eq _ _ ht', hb, List.drop_replicate]
    simp only [List.length_append, List.length_singleton, List.append_assoc, List.singleton_append]
    rw [show 9 - t.length = (9 - (t.length + 1)) + 1 by omega, List.replicate_succ]
  have hd2 : (t ++ List.replicate (9 - t.length) 0#8).length = 9 := by simp; omega
  have hdlc : (BitVec.ofNat 8 t.length).toNat = t.length := by rw [BitVec.toNat_ofNat]; omega
  refine ⟨{ id := Identifier.mk' kRequestConfigData s.senderHash,
            data := ({ dlc := 8#8 } : Data).withBytes (str "loknamen" ++ [0#8]) },
          { id := Identifier.mk' kRequestConfigData s.senderHash,
            data := { ({} : Data).withBytes (t ++ List.replicate (9 - t.length) 0#8) with dlc := BitVec.ofNat 8 t.length } },
          ?_, ?_, ?_, ?_, ?_⟩
  · simp only [Station.RequestEngineList, Station.AbortCurrentConfigRequest, finish_eq, hgt, hn1, hn2, bind, Except.bind]
    rw [if_pos (by show (BitVec.ofNat 8 t.length).toNat ≤ 8; omega)]
    simp only [Station.txSend, htx]
    cases parser <;> simp
  · exact sentFrame_intro (by decide) hraw rfl (by decide)
  · show (Data.withBytes _ _).bytes.take 8 = _
    decide
  · exact sentFrame_intro (by decide) hraw hdlc (by omega)
  · show (({} : Data).withBytes _).bytes = _
    rw [withBytes_bytes _ hd2]

/-- Non-vacuity: offset 254 from a station with a registered consumer 1, new consumer 2. -/
example : (({ callbacks := { tx := some 9, configData := some 1 } } : Station).RequestEngineList 254#8 (some 2)).map
    (fun r => r.2.length) = .ok 4 := by
  obtain ⟨f1, f2, h, -⟩ := C20_request_engine_list { callbacks := { tx := some 9, configData := some 1 } } 9 rfl 254#8 (some 2)
  rw [h]; rfl

/-! ## C21 -/

/-- The 16 characters of the name that are transmitted, zero-padded. -/
def paddedName (text : List Byte) : List Byte := (text ++ List.replicate 16 0#8).take 16

/-- An engine request for an engine with a name, while no download is in progress: reset the old consumer, register and start the new
one, then send `lokinfo` and the first and second eight bytes of the zero-padded name. -/
theorem C21_request_engine (s : Station) (cb : Nat) (htx : s.callbacks.tx = some cb) (processing : Bool) (engine : ShortInfo)
    (parser : Option Nat) (text rest : List Byte) (hname : engine.name = text ++ 0#8 :: rest) (hn : NoNul text)
    (hk : engine.isNameKnown = true) (hp : s.callbacks.configData = none ∨ processing = false) :
    ∃ f1 f2 f3, s.RequestEngine processing engine parser =
        .ok ({ s with callbacks := { s.callbacks with configData := parser } },
             s.callbacks.configData.toList.map .cfgReset ++ parser.toList.map .cfgStart ++
               [.tx cb f1, .tx cb f2, .tx cb f3]) ∧
      SentFrame f1 s.senderHash 0x20 8 ∧ f1.data.bytes.take 8 = str "lokinfo" ++ [0#8] ∧
      SentFrame f2 s.senderHash 0x20 8 ∧ f2.data.bytes.take 8 = (paddedName text).take 8 ∧
      SentFrame f3 s.senderHash 0x20 8 ∧ f3.data.bytes.take 8 = (paddedName text).drop 8 := by
  have hraw : (Identifier.mk' kRequestConfigData s.senderHash).raw.toNat = 0x20 * 2 ^ 17 + s.senderHash.toNat :=
    C01_construct _ _
  have hb : ∀ d : Byte, ({ dlc := d } : Data).bytes = List.replicate 9 0#8 := fun _ => rfl
  have h8 : CanDataMaxLength = 8 := rfl
  have hn1 : strncpy ({ dlc := 8#8 } : Data).bytes kEngine Data.kDataBufferLength = .ok (str "lokinfo" ++ [0#8, 0#8]) := by decide
  have hn2 : strncpy ({ dlc := 8#8 } : Data).bytes engine.name CanDataMaxLength =
      .ok (text.take 8 ++ List.replicate (8 - text.length) 0#8 ++ [0#8]) := by
    rw [hname, h8, strncpy_eq _ _ text rest hn (by rw [hb]; simp), hb, List.drop_replicate]; rfl
  have hlen : strlen engine.name = .ok text.length := by rw [hname]; exact strlen_eq text rest hn
  have hn3 : text.length > 8 → strncpy ({ dlc := 8#8 } : Data).bytes (engine.name.drop CanDataMaxLength) CanDataMaxLength =
      .ok ((text.drop 8).take 8 ++ List.replicate (8 - (text.drop 8).length) 0#8 ++ [0#8]) := by
    intro hl
    rw [hname, h8, List.drop_append_of_le_length (by omega), strncpy_eq _ _ (text.drop 8) rest (hn.drop 8) (by rw [hb]; simp), hb,
      List.drop_replicate]
    rfl
  have l2 : (text.take 8 ++ List.replicate (8 - text.length) 0#8 ++ [0#8] : List Byte).length = 9 := by simp; omega
  have l3 : ((text.drop 8).take 8 ++ List.replicate (8 - (text.drop 8).length) 0#8 ++ [0#8] : List Byte).length = 9 := by
    simp; omega
  have hpad1 : (paddedName text).take 8 = text.take 8 ++ List.replicate (8 - text.length) 0#8 := by
    rw [paddedName, List.take_take, show min 8 16 = 8 from rfl, List.take_append, List.take_replicate]
    congr 2; omega
  have hpad2 : (paddedName text).drop 8 = (text.drop 8).take 8 ++ List.replicate (8 - (text.drop 8).length) 0#8 := by
    rw [paddedName, List.drop_take, List.drop_append, List.take_append, List.drop_replicate, List.take_replicate]
    congr 2
    simp only [List.length_drop]; omega
  have hcond : (s.callbacks.configData.isSome && processing) = false := by
    rcases hp with h | h
    · rw [h]; rfl
    · rw [h]; simp
  refine ⟨{ id := Identifier.mk' kRequestConfigData s.senderHash,
            data := ({ dlc := 8#8 } : Data).withBytes (str "lokinfo" ++ [0#8, 0#8]) },
          { id := Identifier.mk' kRequestConfigData s.senderHash,
            data := ({ dlc := 8#8 } : Data).withBytes (text.take 8 ++ List.replicate (8 - text.length) 0#8 ++ [0#8]) },
          { id := Identifier.mk' kRequestConfigData s.senderHash,
            data := ({ dlc := 8#8 } : Data).withBytes
              ((text.drop 8).take 8 ++ List.replicate (8 - (text.drop 8).length) 0#8 ++ [0#8]) },
          ?_, ?_, ?_, ?_, ?_, ?_, ?_⟩
  · simp only [Station.RequestEngine, hk, hcond, Bool.not_true, Bool.false_eq_true, if_false,
      Station.AbortCurrentConfigRequest, finish_eq, Station.txSend, htx, Data.reset, hn1, hn2, hlen, bind, Except.bind]
    by_cases hl : text.length > 8
    · rw [if_pos (by rw [h8]; exact hl)]
      simp only [hn3 hl]
      cases parser <;> simp
    · rw [if_neg (by rw [h8]; exact hl)]
      have e : ({ dlc := 8#8 } : Data) =
          ({ dlc := 8#8 } : Data).withBytes ((text.drop 8).take 8 ++ List.replicate (8 - (text.drop 8).length) 0#8 ++ [0#8]) := by
        have : text.drop 8 = [] := List.drop_eq_nil_of_le (by omega)
        rw [this]; decide
      simp only []
      rw [← e]
      cases parser <;> simp
  · exact sentFrame_intro (by decide) hraw rfl (by decide)
  · show (Data.withBytes _ _).bytes.take 8 = _
    decide
  · exact sentFrame_intro (by decide) hraw rfl (by decide)
  · show (Data.withBytes _ _).bytes.take 8 = _
    rw [withBytes_bytes _ l2, hpad1, List.take_left' (by simp; omega)]
  · exact sentFrame_intro (by decide) hraw rfl (by decide)
  · show (Data.withBytes _ _).bytes.take 8 = _
    rw [withBytes_bytes _ l3, hpad2, List.take_left' (by simp; omega)]

/-- An engine without name, or a download in progress: nothing happens at all. -/
theorem C21_request_refused (s : Station) (processing : Bool) (engine : ShortInfo) (parser : Option Nat)
    (h : engine.isNameKnown = false ∨ (s.callbacks.configData.isSome = true ∧ processing = true)) :
    s.RequestEngine processing engine parser = .ok (s, []) := by
  unfold Station.RequestEngine
  rcases h with h | ⟨h1, h2⟩
  · simp [h]
  · cases hk : engine.isNameKnown
    · simp
    · simp [h1, h2]

/-- The name the master reads from the two frames (16 bytes, cut at the first NUL) is the first 16 characters of the engine name: all
of it whenever it has at most 16 characters. -/
theorem C21_name_seen (text : List Byte) (hn : NoNul text) :
    cstr (paddedName text ++ [0#8]) = .ok (text.take 16) := by
  by_cases h : text.length ≤ 16
  · have e : paddedName text = text ++ List.replicate (16 - text.length) 0#8 := by
      rw [paddedName, List.take_append, List.take_of_length_le h, List.take_replicate]
      congr 2; omega
    rw [e, List.append_assoc, List.take_of_length_le h]
    cases hk : 16 - text.length with
    | zero => exact cstr_eq text [] hn
    | succ k => exact cstr_eq text (List.replicate k 0#8 ++ [0#8]) hn
  · have e : paddedName text = text.take 16 := by
      rw [paddedName, List.take_append_of_le_length (by omega)]
    rw [e]
    exact cstr_eq _ [] (hn.take 16)

/-- The last sentence of the claim at its limit: a name of 17 characters is not what the master sees. -/
theorem C21_long_name_cut (text : List Byte) (hn : NoNul text) (h : 16 < text.length) :
    ∃ seen, cstr (paddedName text ++ [0#8]) = .ok seen ∧ seen ≠ text := by
  refine ⟨_, C21_name_seen text hn, ?_⟩
  intro e
  have := congrArg List.length e
  simp at this
  omega

/-- Non-vacuity: an engine with a 9-character name. -/
example : ∃ f1 f2 f3, (({ callbacks := { tx := some 9 } } : Station).RequestEngine false
      { availability := .NAME_KNOWN, name := lit "BR 103 DB" } (some 2)) =
    .ok ({ callbacks := { tx := some 9, configData := some 2 } }, [.cfgStart 2, .tx 9 f1, .tx 9 f2, .tx 9 f3]) ∧
    f2.data.bytes.take 8 = str "BR 103 D" ∧ f3.data.bytes.take 8 = str "B" ++ List.replicate 7 0#8 := by
  obtain ⟨f1, f2, f3, h, -, -, -, h2, -, h3⟩ := C21_request_engine { callbacks := { tx := some 9 } } 9 rfl false
    { availability := .NAME_KNOWN, name := lit "BR 103 DB" } (some 2) (str "BR 103 DB") [] rfl (by decide) rfl (Or.inl rfl)
  exact ⟨f1, f2, f3, h, h2.trans (by decide), h3.trans (by decide)⟩

/-! ## C22 -/

theorem allFunctionsLoop_eq (s : Station) (cb : Nat) (htx : s.callbacks.tx = some cb) (f : CanFrame) (n i : Nat)
    (hi : i + n ≤ 256) :
    s.allFunctionsLoop f n (BitVec.ofNat 8 i) =
      .ok ((List.range n).map (fun k => .tx cb { f with data := { f.data with b4 := BitVec.ofNat 8 (i + k) } })) := by
  induction n generalizing f i with
  | zero => rfl
  | succ n ih =>
    have e : BitVec.ofNat 8 i + 1#8 = BitVec.ofNat 8 (i + 1) := by
      apply BitVec.eq_of_toNat_eq
      simp
    simp only [Station.allFunctionsLoop, Station.txSend, htx, bind, Except.bind, e]
    rw [ih _ (i + 1) (by omega)]
    simp only [List.range_succ_eq_map, List.map_cons, List.map_map, List.singleton_append, Nat.add_zero]
    congr 3
    funext k
    simp [Nat.add_comm, Nat.add_left_comm]

/-- Requesting all functions sends exactly 16 frames, for functions 0 to 15 in order, each the one `RequestEngineFunction` sends. -/
theorem C22_all_functions (s : Station) (cb : Nat) (htx : s.callbacks.tx = some cb) (e : LocomotiveData) :
    ∃ frames : Nat → CanFrame,
      s.RequestEngineAllFunctions e = .ok ((List.range 16).map (fun k => .tx cb (frames k))) ∧
      ∀ k, k < 16 → s.RequestEngineFunction e (BitVec.ofNat 8 k) = .ok [.tx cb (frames k)] ∧
        SentFrame (frames k) s.senderHash 0x06 5 ∧ (frames k).data.getLocid = e.uid ∧ (frames k).data.b4.toNat = k := by
  refine ⟨_, allFunctionsLoop_eq s cb htx _ 16 0 (by decide), ?_⟩
  intro k hk
  refine ⟨?_, sentFrame_intro (by decide) (C01_construct _ _) rfl (by decide), (C02_roundtrip {} e.uid).1, ?_⟩
  · simp only [Station.RequestEngineFunction, Station.txSend, htx, Nat.zero_add]
  · simp; omega

/-- Non-vacuity: function 15 of engine 0x4005. -/
example : ({ callbacks := { tx := some 9 } } : Station).RequestEngineFunction { uid := 0x4005#32 } 15#8 =
    .ok [.tx 9 { id := ⟨0x000C0000#32⟩, data := { dlc := 5#8, b2 := 0x40#8, b3 := 5#8, b4 := 15#8 } }] := by decide

/-! ## C16 -/

/-- A frame with command REQUEST CONFIG DATA causes nothing at any receiver. -/
private theorem request_quiet {f : CanFrame} {hash : U16} {dlc : Nat} (h : SentFrame f hash 0x20 dlc) (r : Station)
    (processing : Bool) : r.HandlePacket processing f = .ok [] := by
  rw [HandlePacket_eq]
  simp [Spec.needsEngine, Spec.dumped, Spec.reaction, h.commandOf]

/-- Requests are passive: every frame transmitted by a request function, handled by any station in any state, causes no callback. -/
theorem C16_requests_passive (s r : Station) (sending receiving : Bool) (e : LocomotiveData) (fn offset : Byte) (parser : Option Nat)
    (engine : ShortInfo) (text rest : List Byte) (hname : engine.name = text ++ 0#8 :: rest) (hn : NoNul text)
    (calls : List Call)
    (h : s.RequestEngineDirection e = .ok calls ∨ s.RequestEngineVelocity e = .ok calls ∨
      s.RequestEngineFunction e fn = .ok calls ∨ s.RequestEngineAllFunctions e = .ok calls ∨
      (∃ s', s.RequestEngine sending engine parser = .ok (s', calls)) ∨
      (∃ s', s.RequestEngineList offset parser = .ok (s', calls)))
    (cb : Nat) (f : CanFrame) (hf : Call.tx cb f ∈ calls) :
    r.HandlePacket receiving f = .ok [] := by
  have hres : ∀ (o : Option Nat), Call.tx cb f ∉ o.toList.map Call.cfgReset := by
    intro o hm
    obtain ⟨_, _, h⟩ := List.mem_map.mp hm
    cases h
  have hst : ∀ (o : Option Nat), Call.tx cb f ∉ o.toList.map Call.cfgStart := by
    intro o hm
    obtain ⟨_, _, h⟩ := List.mem_map.mp hm
    cases h
  cases htx : s.callbacks.tx with
  | none =>
    exfalso
    have htn : ∀ f, s.txSend f = .error .nullDeref := by intro f; simp [Station.txSend, htx]
    rcases h with h | h | h | h | ⟨s', h⟩ | ⟨s', h⟩
    · simp [Station.RequestEngineDirection, htn] at h
    · simp [Station.RequestEngineVelocity, htn] at h
    · simp [Station.RequestEngineFunction, htn] at h
    · simp [Station.RequestEngineAllFunctions, Station.allFunctionsLoop, htn, bind, Except.bind] at h
    · unfold Station.RequestEngine at h
      split at h
      · injection h with h; injection h with _ h; subst h; cases hf
      · split at h
        · injection h with h; injection h with _ h; subst h; cases hf
        · simp only [Station.AbortCurrentConfigRequest, finish_eq, Station.txSend, htx, bind, Except.bind] at h
          split at h <;> cases h
    · unfold Station.RequestEngineList at h
      simp only [Station.AbortCurrentConfigRequest, finish_eq, Station.txSend, htx, bind, Except.bind] at h
      split at h
      · cases h
      · split at h
        · cases h
        · split at h
          · cases h
          · injection h with h; injection h with _ h; subst h
            exact hres _ hf
  | some cb' =>
    rcases h with h | h | h | h | ⟨s', h⟩ | ⟨s', h⟩
    · simp only [Station.RequestEngineDirection, Station.txSend, htx, Except.ok.injEq] at h
      subst h
      have := List.mem_singleton.mp hf
      injection this with _ h2; subst h2
      have hs : SentFrame { id := Identifier.mk' kLocoDirection s.senderHash, data := ({ dlc := 4#8 } : Data).setLocid e.uid }
        s.senderHash 0x05 4 := sentFrame_intro (by decide) (C01_construct _ _) rfl (by decide)
      rw [HandlePacket_eq]
      simp [Spec.needsEngine, Spec.dumped, Spec.reaction, hs.commandOf, hs.length]
    · simp only [Station.RequestEngineVelocity, Station.txSend, htx, Except.ok.injEq] at h
      subst h
      have := List.mem_singleton.mp hf
      injection this with _ h2; subst h2
      have hs : SentFrame { id := Identifier.mk' kLocoSpeed s.senderHash, data := ({ dlc := 4#8 } : Data).setLocid e.uid }
        s.senderHash 0x04 4 := sentFrame_intro (by decide) (C01_construct _ _) rfl (by decide)
      rw [HandlePacket_eq]
      simp [Spec.needsEngine, Spec.dumped, Spec.reaction, hs.commandOf, hs.length]
    · simp only [Station.RequestEngineFunction, Station.txSend, htx, Except.ok.injEq] at h
      subst h
      have := List.mem_singleton.mp hf
      injection this with _ h2; subst h2
      have hs : SentFrame { id := Identifier.mk' kLocoFunction s.senderHash,
                            data := { ({ dlc := 5#8 } : Data).setLocid e.uid with b4 := fn } }
        s.senderHash 0x06 5 := sentFrame_intro (by decide) (C01_construct _ _) rfl (by decide)
      rw [HandlePacket_eq]
      simp [Spec.needsEngine, Spec.dumped, Spec.reaction, hs.commandOf, hs.length]
    · obtain ⟨frames, hall, hfr⟩ := C22_all_functions s cb' htx e
      rw [hall] at h
      injection h with h
      subst h
      obtain ⟨k, hk, heq⟩ := List.mem_map.mp hf
      injection heq with _ h2
      subst h2
      obtain ⟨_, hs, _, _⟩ := hfr k (List.mem_range.mp hk)
      rw [HandlePacket_eq]
      simp [Spec.needsEngine, Spec.dumped, Spec.reaction, hs.commandOf, hs.length]
    · by_cases hc : engine.isNameKnown = true ∧ (s.callbacks.configData = none ∨ sending = false)
      · obtain ⟨f1, f2, f3, hall, s1, _, s2, _, s3, _⟩ :=
          C21_request_engine s cb' htx sending engine parser text rest hname hn hc.1 hc.2
        rw [hall] at h
        injection h with h; injection h with _ h; subst h
        rcases List.mem_append.mp hf with hm | hm
        · rcases List.mem_append.mp hm with hm | hm
          · exact absurd hm (hres _)
          · exact absurd hm (hst _)
        · simp only [List.mem_cons, Call.tx.injEq, List.not_mem_nil, or_false] at hm
          rcases hm with ⟨_, rfl⟩ | ⟨_, rfl⟩ | ⟨_, rfl⟩
          · exact request_quiet s1 _ _
          · exact request_quiet s2 _ _
          · exact request_quiet s3 _ _
      · have : s.RequestEngine sending engine parser = .ok (s, []) := by
          apply C21_request_refused
          cases hk : engine.isNameKnown
          · exact Or.inl rfl
          · right
            rw [hk] at hc
            simp only [true_and, not_or] at hc
            exact ⟨Option.isSome_iff_ne_none.mpr hc.1, by simpa using hc.2⟩
        rw [this] at h
        injection h with h; injection h with _ h; subst h; cases hf
    · obtain ⟨f1, f2, hall, s1, _, s2, _⟩ := C20_request_engine_list s cb' htx offset parser
      rw [hall] at h
      injection h with h; injection h with _ h; subst h
      rcases List.mem_append.mp hf with hm | hm
      · rcases List.mem_append.mp hm with hm | hm
        · exact absurd hm (hres _)
        · exact absurd hm (hst _)
      · simp only [List.mem_cons, Call.tx.injEq, List.not_mem_nil, or_false] at hm
        rcases hm with ⟨_, rfl⟩ | ⟨_, rfl⟩
        · exact request_quiet s1 _ _
        · exact request_quiet s2 _ _

/-- The status request frame causes nothing either. -/
theorem C16_get_status (r : Station) (processing : Bool) : r.HandlePacket processing Util.System_GetStatus = .ok [] := by
  have hc : Spec.commandOf Util.System_GetStatus = 0 := by decide
  have hd : Util.System_GetStatus.data.dlc.toNat = 4 := rfl
  rw [HandlePacket_eq]
  simp [Spec.needsEngine, Spec.dumped, Spec.reaction, hc, hd]

/-- Non-vacuity: a request that does transmit a frame. -/
example : ({ callbacks := { tx := some 9 } } : Station).RequestEngineVelocity { uid := 5#32 } =
    .ok [.tx 9 { id := ⟨0x00080000#32⟩, data := { dlc := 4#8, b3 := 5#8 } }] := by decide

end RR32
