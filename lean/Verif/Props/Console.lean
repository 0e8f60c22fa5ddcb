import Verif.Proofs.Console
import Verif.Props.Identifier
import Verif.Proofs.World
import Verif.Spec.Protocol
import Verif.Spec.Receive

/-! # C66 to C70: what the log says about frames -/

set_option autoImplicit false

namespace RR32

open Spec (readHex readDec readDump hexAfter decAfter after value WholeLines commandOf)

/-! ## C66: payload dumps -/

/-- C66: the hex dump of a payload is read back as exactly the bytes that the length announces. -/
theorem C66_hex (d : Data) (h : d.dlc.toNat ≤ 9) :
    ∃ t, d.printAsHex = .ok t ∧ readDump t = some (d.bytes.take d.dlc.toNat) := by
  refine ⟨_, by rw [Data.printAsHex, printed_eq d h]; rfl, readDump_dump _⟩

/-- C66: the text dump of a payload is exactly the bytes that the length announces. -/
theorem C66_text (d : Data) (h : d.dlc.toNat ≤ 9) : d.printAsText = .ok (d.bytes.take d.dlc.toNat) := by
  rw [Data.printAsText, printed_eq d h]; rfl

theorem dumpByte_eq : ∀ b : Byte, hexZeros false 2 b.toNat = Spec.dumpByte b := by decide +kernel

/-- C66: the hex dump to the letter. -/
theorem C66_exact (d : Data) (h : d.dlc.toNat ≤ 9) :
    d.printAsHex = .ok ((d.bytes.take d.dlc.toNat).flatMap fun b => 32#8 :: Spec.dumpByte b) := by
  rw [Data.printAsHex, printed_eq d h]
  simp only [dumpByte_eq]
  rfl

/-- C66: two payloads of at most 9 bytes have the same hex dump exactly if they are equal as the library compares them. -/
theorem C66_determines (a b : Data) (ha : a.dlc.toNat ≤ 9) (hb : b.dlc.toNat ≤ 9) :
    a.printAsHex = b.printAsHex ↔ a.eq b = .ok true := by
  obtain ⟨ta, hta, hra⟩ := C66_hex a ha
  obtain ⟨tb, htb, hrb⟩ := C66_hex b hb
  have hla : (a.bytes.take a.dlc.toNat).length = a.dlc.toNat := by simp [Data.bytes]; omega
  have hlb : (b.bytes.take b.dlc.toNat).length = b.dlc.toNat := by simp [Data.bytes]; omega
  constructor
  · intro h
    have ht : ta = tb := by rw [hta, htb] at h; exact Except.ok.inj h
    have hp : a.bytes.take a.dlc.toNat = b.bytes.take b.dlc.toNat := by
      rw [ht] at hra; exact Option.some.inj (hra.symm.trans hrb)
    have hd : a.dlc = b.dlc := by
      apply BitVec.eq_of_toNat_eq
      rw [← hla, ← hlb, hp]
    unfold Data.eq memcmpEq
    rw [if_neg (by simp [hd]), if_pos (by simp [Data.bytes]; omega)]
    rw [← hd] at hp
    simp [hp]
  · intro h
    unfold Data.eq memcmpEq at h
    split at h
    · cases h
    · next hd =>
      rw [if_pos (by simp [Data.bytes]; omega)] at h
      have hd : a.dlc = b.dlc := by simpa using hd
      have hp : a.bytes.take a.dlc.toNat = b.bytes.take a.dlc.toNat := by simpa using Except.ok.inj h
      rw [Data.printAsHex, Data.printAsHex, printed_eq a ha, printed_eq b hb, ← hd, hp]

/-- C66: a payload of more than 9 bytes cannot be printed; a CAN frame has none. -/
theorem C66_overrun (d : Data) (h : 9 < d.dlc.toNat) :
    d.printAsHex = .error .oobRead ∧ d.printAsText = .error .oobRead := by
  constructor
  · rw [Data.printAsHex, printed_overrun d h]; rfl
  · rw [Data.printAsText, printed_overrun d h]; rfl

/-- C66 is not vacuous: a payload with a zero, a small and a large byte. -/
example : ({ dlc := 3#8, b0 := 0#8, b1 := 5#8, b2 := 0xAB#8, b3 := 7#8 } : Data).printAsHex = .ok (str " 00 0x5 0xab") := by
  decide +kernel

/-! ## C67: identifiers -/

theorem stops_str (s : String) (r : List Byte) (c : Byte) (cs : List Byte) (h : str s = c :: cs)
    (hc : c = 32#8 ∨ c = 44#8 ∨ c = 10#8) : Stops (str s ++ r) := by
  right; exact ⟨c, cs ++ r, by rw [h]; rfl, hc⟩

/-- C67: every field of a printed identifier is read back. -/
theorem C67_fields (i : Identifier) :
    hexAfter "Prio: " i.printAll = some (i.raw.toNat / 2 ^ 25 % 16) ∧
    hexAfter ", Command: " i.printAll = some (i.raw.toNat / 2 ^ 17 % 256) ∧
    hexAfter ", Response: " i.printAll = some (i.raw.toNat / 2 ^ 16 % 2) ∧
    hexAfter ", Hash: " i.printAll = some (i.raw.toNat % 2 ^ 16) := by
  obtain ⟨hh, hb, hc, hp⟩ := C01_fields i
  replace hc : i.getCommand.toNat = i.raw.toNat / 2 ^ 17 % 256 := hc
  replace hp : i.getPriority.toNat = i.raw.toNat / 2 ^ 25 % 16 := hp
  have hr : i.isResponse.toNat = i.raw.toNat / 2 ^ 16 % 2 := by
    cases hi : i.isResponse with
    | false => rw [hi] at hb; simp at hb; simp; omega
    | true => rw [hi] at hb; simp at hb; simp; omega
  unfold Identifier.printAll
  rw [hp, hc, hr, hh]
  simp only [List.append_assoc]
  have num : ∀ w n l, misses (44#8 :: l) (hexZeros true w n) = true := fun w n l =>
    misses_number _ _ _ (by decide) (hexZeros_chars true w n)
  have l1 : str ", Command: " = 44#8 :: (str ", Command: ").tail := by decide
  have l2 : str ", Response: " = 44#8 :: (str ", Response: ").tail := by decide
  have l3 : str ", Hash: " = 44#8 :: (str ", Hash: ").tail := by decide
  refine ⟨?_, ?_, ?_, ?_⟩
  · have := hexAfter_zeros "Prio: " [] true 4 (i.raw.toNat / 2 ^ 25 % 16)
      (str ", Command: " ++ (hexZeros true 4 (i.raw.toNat / 2 ^ 17 % 256) ++ (str ", Response: " ++
        (hexZeros true 4 (i.raw.toNat / 2 ^ 16 % 2) ++ (str ", Hash: " ++ hexZeros true 6 (i.raw.toNat % 2 ^ 16))))))
      (by decide) rfl (stops_str _ _ _ _ l1 (by decide))
    simpa only [List.nil_append] using this
  · have := hexAfter_zeros ", Command: " (str "Prio: " ++ hexZeros true 4 (i.raw.toNat / 2 ^ 25 % 16)) true 4
      (i.raw.toNat / 2 ^ 17 % 256)
      (str ", Response: " ++ (hexZeros true 4 (i.raw.toNat / 2 ^ 16 % 2) ++ (str ", Hash: " ++
        hexZeros true 6 (i.raw.toNat % 2 ^ 16)))) (by decide)
      (misses_append _ _ _ (by decide) (by rw [l1]; exact num _ _ _)) (stops_str _ _ _ _ l2 (by decide))
    simpa only [List.append_assoc] using this
  · have := hexAfter_zeros ", Response: " (str "Prio: " ++ (hexZeros true 4 (i.raw.toNat / 2 ^ 25 % 16) ++ (str ", Command: " ++
        hexZeros true 4 (i.raw.toNat / 2 ^ 17 % 256)))) true 4 (i.raw.toNat / 2 ^ 16 % 2)
      (str ", Hash: " ++ hexZeros true 6 (i.raw.toNat % 2 ^ 16)) (by decide)
      (misses_append _ _ _ (by decide) (misses_append _ _ _ (by rw [l2]; exact num _ _ _)
        (misses_append _ _ _ (by decide) (by rw [l2]; exact num _ _ _)))) (stops_str _ _ _ _ l3 (by decide))
    simpa only [List.append_assoc] using this
  · have := hexAfter_zeros ", Hash: " (str "Prio: " ++ (hexZeros true 4 (i.raw.toNat / 2 ^ 25 % 16) ++ (str ", Command: " ++
        (hexZeros true 4 (i.raw.toNat / 2 ^ 17 % 256) ++ (str ", Response: " ++ hexZeros true 4 (i.raw.toNat / 2 ^ 16 % 2)))))) true 6
      (i.raw.toNat % 2 ^ 16) [] (by decide)
      (misses_append _ _ _ (by decide) (misses_append _ _ _ (by rw [l3]; exact num _ _ _)
        (misses_append _ _ _ (by decide) (misses_append _ _ _ (by rw [l3]; exact num _ _ _)
          (misses_append _ _ _ (by decide) (by rw [l3]; exact num _ _ _)))))) (.inl rfl)
    simpa only [List.append_assoc, List.append_nil] using this

/-- C67: two identifiers are printed alike exactly if their 29 bits agree. -/
theorem C67_determines (i j : Identifier) : i.printAll = j.printAll ↔ i.raw.toNat % 2 ^ 29 = j.raw.toNat % 2 ^ 29 := by
  constructor
  · intro h
    obtain ⟨p1, c1, r1, h1⟩ := C67_fields i
    obtain ⟨p2, c2, r2, h2⟩ := C67_fields j
    rw [h] at p1 c1 r1 h1
    have ep := Option.some.inj (p1.symm.trans p2)
    have ec := Option.some.inj (c1.symm.trans c2)
    have er := Option.some.inj (r1.symm.trans r2)
    have eh := Option.some.inj (h1.symm.trans h2)
    omega
  · intro h
    obtain ⟨h1, b1, c1, p1⟩ := C01_fields i
    obtain ⟨h2, b2, c2, p2⟩ := C01_fields j
    have ep : i.getPriority = j.getPriority := BitVec.eq_of_toNat_eq (by omega)
    have ec : i.getCommand = j.getCommand := BitVec.eq_of_toNat_eq (by omega)
    have eh : i.getHash = j.getHash := BitVec.eq_of_toNat_eq (by omega)
    have er : i.isResponse = j.isResponse := by
      rw [Bool.eq_iff_iff, b1, b2]; omega
    rw [Identifier.printAll, Identifier.printAll, ep, ec, er, eh]

/-- C67 is not vacuous: a ping with a hash. -/
example : (Identifier.mk 0x00314711#32).printAll = str "Prio: 0000, Command: 0X18, Response: 0X01, Hash: 0X4711" := by
  decide +kernel

/-! ## C68: whole lines -/

/-- The station leaves a line unfinished: an emergency stop, or configuration data that nobody waits for, not ending in a newline. -/
def Unfinished (s : Station) (processing : Bool) (f : CanFrame) : Prop :=
  (commandOf f = 0x00 ∧ 5 ≤ f.data.dlc.toNat ∧ f.data.b4 = 3#8) ∨
  (commandOf f = 0x21 ∧ (s.callbacks.configData = none ∨ processing = false) ∧
    (f.data.bytes.take f.data.dlc.toNat).getLast? ≠ some 10#8)

theorem getLast?_append_right (a b : List Byte) (h : b ≠ []) : (a ++ b).getLast? = b.getLast? := by
  rw [List.getLast?_append, List.getLast?_eq_some_getLast h]
  rfl

theorem wholeLines_end (a : List Byte) : WholeLines (a ++ str "\n") := by
  right
  rw [getLast?_append_right _ _ (by decide)]
  decide

theorem wholeLines_line (a : List Byte) (s : String) (h : (str s).getLast? = some 10#8) : WholeLines (a ++ str s) := by
  right
  have hne : str s ≠ [] := by intro e; rw [e] at h; cases h
  rw [getLast?_append_right _ _ hne, h]

/-- C68, as far as it is true: what the station prints for a frame is made of whole lines, exactly if the frame is neither an
emergency stop nor unexpected configuration data that does not end in a newline. What is missing: for those frames the claim is
false, see `C68_unfinished`. -/
theorem C68_lines_partial (s : Station) (processing : Bool) (f : CanFrame) (t : List Byte)
    (h : s.packetText processing f = .ok t) : WholeLines t ↔ ¬ Unfinished s processing f := by
  have hcmd : f.id.getCommand.toNat = commandOf f := (C01_fields f.id).2.2.1
  have other : commandOf f ≠ 0x00 → commandOf f ≠ 0x21 → WholeLines t → (WholeLines t ↔ ¬ Unfinished s processing f) := by
    intro h0 h1 ht
    refine ⟨fun _ hu => ?_, fun _ => ht⟩
    rcases hu with ⟨h, _⟩ | ⟨h, _⟩
    · exact h0 h
    · exact h1 h
  have num : ∀ c : Byte, f.id.getCommand = c → commandOf f = c.toNat := fun c hc => by rw [← hcmd, hc]
  unfold Station.packetText at h
  dsimp only at h
  split at h
  · next hc =>
    have hc := num _ hc
    replace hc : commandOf f = 0 := hc
    have ht := (Except.ok.inj h).symm
    subst ht
    unfold Station.systemText
    by_cases hl : BaseMessage.length f.data ≥ 5#8
    · have hl' : 5 ≤ f.data.dlc.toNat := by simpa [BaseMessage.length, BitVec.le_def] using hl
      rw [if_pos hl]
      by_cases h3 : f.data.b4 = 3#8
      · have hu : Unfinished s processing f := .inl ⟨hc, hl', h3⟩
        have htext : Station.subcommandText (SystemMessage.getSubcommand f.data) = [] := by
          rw [SystemMessage.getSubcommand, h3]; decide
        rw [htext]
        have hw : ¬ WholeLines (str "System Command. " ++ (str " Subcommand: " ++ [])) := by
          unfold WholeLines; decide
        exact ⟨fun h => absurd h hw, fun hn => absurd hu hn⟩
      · have hn : ¬ Unfinished s processing f := by
          rintro (⟨_, _, h⟩ | ⟨h, _⟩)
          · exact h3 h
          · rw [hc] at h; cases h
        refine ⟨fun _ => hn, fun _ => ?_⟩
        rw [← List.append_assoc]
        unfold Station.subcommandText SystemMessage.getSubcommand
        split
        · exact wholeLines_line _ _ (by decide)
        split
        · exact wholeLines_line _ _ (by decide)
        split
        · exact wholeLines_line _ _ (by decide)
        split
        · next h => exact absurd h h3
        split
        · exact wholeLines_line _ _ (by decide)
        split
        · exact wholeLines_line _ _ (by decide)
        split
        · exact wholeLines_line _ _ (by decide)
        split
        · exact wholeLines_line _ _ (by decide)
        · exact wholeLines_line _ _ (by decide)
    · have hl' : ¬ 5 ≤ f.data.dlc.toNat := by simpa [BaseMessage.length, BitVec.le_def] using hl
      rw [if_neg hl]
      refine ⟨fun _ => ?_, fun _ => wholeLines_line _ _ (by decide)⟩
      rintro (⟨_, h, _⟩ | ⟨h, _⟩)
      · exact hl' h
      · rw [hc] at h; cases h
  split at h
  · next hc =>
    have hc := num _ hc
    exact other (by rw [hc]; decide) (by rw [hc]; decide) (.inl (Except.ok.inj h).symm)
  split at h
  · next hc =>
    have hc := num _ hc
    refine other (by rw [hc]; decide) (by rw [hc]; decide) ?_
    rw [← Except.ok.inj h]
    exact wholeLines_end _
  split at h
  · next hc =>
    have hc := num _ hc
    exact other (by rw [hc]; decide) (by rw [hc]; decide) (.inl (Except.ok.inj h).symm)
  split at h
  · next hc =>
    have hc := num _ hc
    exact other (by rw [hc]; decide) (by rw [hc]; decide) (.inl (Except.ok.inj h).symm)
  split at h
  · next hc =>
    have hc := num _ hc
    exact other (by rw [hc]; decide) (by rw [hc]; decide) (.inl (Except.ok.inj h).symm)
  split at h
  · next hc =>
    have hc := num _ hc
    exact other (by rw [hc]; decide) (by rw [hc]; decide) (.inl (Except.ok.inj h).symm)
  split at h
  · next hc =>
    have hc := num _ hc
    replace hc : commandOf f = 0x21 := hc
    have h0 : commandOf f ≠ 0 := by rw [hc]; decide
    unfold Station.configDataText at h
    split at h
    · next hp =>
      simp only [Bool.and_eq_true] at hp
      refine ⟨fun _ => ?_, fun _ => .inl (Except.ok.inj h).symm⟩
      rintro (⟨h, _⟩ | ⟨_, h, _⟩)
      · exact h0 h
      · rcases h with h | h
        · rw [h] at hp; simp at hp
        · rw [h] at hp; simp at hp
    · next hp =>
      have hp' : s.callbacks.configData = none ∨ processing = false := by
        cases hcb : s.callbacks.configData with
        | none => exact .inl rfl
        | some n => rw [hcb] at hp; simpa using hp
      by_cases hd : f.data.dlc.toNat ≤ 9
      · rw [C66_text f.data hd] at h
        have ht : t = str "Ignoring ConfigData Stream: " ++ f.data.bytes.take f.data.dlc.toNat := (Except.ok.inj h).symm
        have key : WholeLines t ↔ (f.data.bytes.take f.data.dlc.toNat).getLast? = some 10#8 := by
          rw [ht]
          by_cases he : f.data.bytes.take f.data.dlc.toNat = []
          · rw [he]
            simp only [WholeLines, List.append_nil, List.getLast?_nil]
            decide
          · unfold WholeLines
            rw [getLast?_append_right _ _ he]
            constructor
            · rintro (h | h)
              · exact absurd (List.append_eq_nil_iff.mp h).2 he
              · exact h
            · exact .inr
        rw [key]
        constructor
        · rintro hn (⟨h, _⟩ | ⟨_, _, h⟩)
          · exact h0 h
          · exact h hn
        · intro hn
          by_cases hg : (f.data.bytes.take f.data.dlc.toNat).getLast? = some 10#8
          · exact hg
          · exact absurd (.inr ⟨hc, hp', hg⟩) hn
      · rw [(C66_overrun f.data (by omega)).2] at h
        cases h
  split at h
  · next hc =>
    have hc := num _ hc
    refine other (by rw [hc]; decide) (by rw [hc]; decide) ?_
    obtain ⟨x, _, hx⟩ := bind_ok h
    rw [← Except.ok.inj hx]
    exact wholeLines_line _ _ (by decide)
  · next hs _ _ _ _ _ _ hcfg _ =>
    refine other (fun h0 => hs (BitVec.eq_of_toNat_eq (by rw [hcmd, h0]; rfl)))
      (fun h1 => hcfg (BitVec.eq_of_toNat_eq (by rw [hcmd, h1]; rfl))) ?_
    obtain ⟨x, _, hx⟩ := bind_ok h
    rw [← Except.ok.inj hx]
    exact wholeLines_end _

/-- C68 is false for an emergency stop: the next message is printed on the same line. -/
theorem C68_unfinished :
    ∃ (s : Station) (f : CanFrame) (t : List Byte), s.packetText false f = .ok t ∧ ¬ WholeLines t ∧
      t = str "System Command.  Subcommand: " :=
  ⟨{}, { id := ⟨0#32⟩, data := { dlc := 5#8, b3 := 7#8, b4 := 3#8 } }, _, rfl, by
    unfold WholeLines; decide +kernel, by decide +kernel⟩

/-! ## C69: accessory frames -/

theorem label_eq (s : String) (c : Byte) (h : (str s).head? = some c) : str s = c :: (str s).tail := by
  cases hs : str s with
  | nil => rw [hs] at h; cases h
  | cons a l => rw [hs] at h; cases h; rfl

/-- The text of a turnout packet in pieces that are nested to the right. -/
theorem turnout_pieces (d : Data) : TurnoutPacket.printAll d =
    str "Turnout: " ++ (hexSpaces 10 d.getLocid.toNat ++ (str ", " ++ (str "Human Value: " ++ (intText (d.getLocid + 1#32) ++ (str ", " ++
      (str "Position: " ++ (decText d.b4.toNat ++ (str " " ++ (TurnoutPacket.positionText d.b4 ++ (str " " ++ (str "Power: " ++
        (decText (TurnoutPacket.getPower d).toNat ++ (str " " ++
          (if !TurnoutPacket.getPower d then str "(off, button release)" else str "(on, button press)")))))))))))))) := by
  have h1 : str ", Human Value: " = str ", " ++ str "Human Value: " := by decide
  have h2 : str ", Position: " = str ", " ++ str "Position: " := by decide
  have h3 : str " Power: " = str " " ++ str "Power: " := by decide
  unfold TurnoutPacket.printAll
  dsimp only
  rw [h1, h2, h3]
  simp only [List.append_assoc]
  rfl

theorem misses_upper (s : String) (c : Byte) (x : List Byte) (h : (str s).head? = some c) (hc : notUpper c = false)
    (hx : ∀ c ∈ x, notUpper c = true) : misses (str s) x = true := by
  rw [label_eq s c h]; exact misses_lower _ _ _ hc hx

theorem positionText_lower (p : Byte) : ∀ c ∈ TurnoutPacket.positionText p, notUpper c = true := by
  unfold TurnoutPacket.positionText
  split
  · decide
  split
  · decide
  split
  · decide
  split
  · decide
  · intro c hc; cases hc

/-- C69: the address, the position and the power of an accessory frame are read back from the log. -/
theorem C69_fields (d : Data) :
    hexAfter "Turnout: " (TurnoutPacket.printAll d) = some d.getLocid.toNat ∧
    decAfter "Position: " (TurnoutPacket.printAll d) = some (d.b4.toNat : Int) ∧
    decAfter "Power: " (TurnoutPacket.printAll d) = some (if d.b5 = 0#8 then 0 else 1) ∧
    decAfter "Human Value: " (TurnoutPacket.printAll d) = some (d.getLocid + 1#32).toInt := by
  have hsp := hexSpaces_lower 10 d.getLocid.toNat
  have hin := intText_lower (d.getLocid + 1#32)
  have hdt := decText_lower d.b4.toNat
  have hpt := positionText_lower d.b4
  have hpow : ((TurnoutPacket.getPower d).toNat : Int) = if d.b5 = 0#8 then 0 else 1 := by
    unfold TurnoutPacket.getPower
    by_cases h : d.b5 = 0#8 <;> simp [h]
  rw [turnout_pieces]
  refine ⟨?_, ?_, ?_, ?_⟩
  · have := hexAfter_spaces "Turnout: " [] 10 d.getLocid.toNat _ (by decide) rfl (stops_str ", " (str "Human Value: " ++ (intText (d.getLocid + 1#32) ++ (str ", " ++
      (str "Position: " ++ (decText d.b4.toNat ++ (str " " ++ (TurnoutPacket.positionText d.b4 ++ (str " " ++ (str "Power: " ++
        (decText (TurnoutPacket.getPower d).toNat ++ (str " " ++
          (if !TurnoutPacket.getPower d then str "(off, button release)" else str "(on, button press)")))))))))))) 44#8 [32#8] (by decide) (by decide))
    simpa only [List.nil_append] using this
  · have := decAfter_dec "Position: " (str "Turnout: " ++ (hexSpaces 10 d.getLocid.toNat ++ (str ", " ++ (str "Human Value: " ++
      (intText (d.getLocid + 1#32) ++ str ", "))))) d.b4.toNat _ (by decide)
      (misses_append _ _ _ (by decide) (misses_append _ _ _ (misses_upper _ 80#8 _ (by decide) (by decide) hsp)
        (misses_append _ _ _ (by decide) (misses_append _ _ _ (by decide)
          (misses_append _ _ _ (misses_upper _ 80#8 _ (by decide) (by decide) hin) (by decide))))))
      (stops_str " " (TurnoutPacket.positionText d.b4 ++ (str " " ++ (str "Power: " ++
        (decText (TurnoutPacket.getPower d).toNat ++ (str " " ++
          (if !TurnoutPacket.getPower d then str "(off, button release)" else str "(on, button press)")))))) 32#8 [] (by decide) (by decide))
    simpa only [List.append_assoc] using this
  · rw [← hpow]
    have := decAfter_dec "Power: " (str "Turnout: " ++ (hexSpaces 10 d.getLocid.toNat ++ (str ", " ++ (str "Human Value: " ++
      (intText (d.getLocid + 1#32) ++ (str ", " ++ (str "Position: " ++ (decText d.b4.toNat ++ (str " " ++
        (TurnoutPacket.positionText d.b4 ++ str " "))))))))))
      (TurnoutPacket.getPower d).toNat _ (by decide)
      (misses_append _ _ _ (by decide) (misses_append _ _ _ (misses_upper _ 80#8 _ (by decide) (by decide) hsp)
        (misses_append _ _ _ (by decide) (misses_append _ _ _ (by decide)
          (misses_append _ _ _ (misses_upper _ 80#8 _ (by decide) (by decide) hin) (misses_append _ _ _ (by decide)
            (misses_append _ _ _ (by decide) (misses_append _ _ _ (misses_upper _ 80#8 _ (by decide) (by decide) hdt)
              (misses_append _ _ _ (by decide) (misses_append _ _ _ (misses_upper _ 80#8 _ (by decide) (by decide) hpt)
                (by decide)))))))))))
      (stops_str " " (if !TurnoutPacket.getPower d then str "(off, button release)" else str "(on, button press)") 32#8 [] (by decide)
        (by decide))
    simpa only [List.append_assoc] using this
  · have := decAfter_int "Human Value: " (str "Turnout: " ++ (hexSpaces 10 d.getLocid.toNat ++ str ", ")) (d.getLocid + 1#32) _
      (by decide)
      (misses_append _ _ _ (by decide) (misses_append _ _ _ (misses_upper _ 72#8 _ (by decide) (by decide) hsp) (by decide)))
      (stops_str ", " (str "Position: " ++ (decText d.b4.toNat ++ (str " " ++ (TurnoutPacket.positionText d.b4 ++ (str " " ++ (str "Power: " ++
        (decText (TurnoutPacket.getPower d).toNat ++ (str " " ++
          (if !TurnoutPacket.getPower d then str "(off, button release)" else str "(on, button press)"))))))))) 44#8 [32#8] (by decide)
        (by decide))
    simpa only [List.append_assoc] using this

/-- C69: behind the number of the position are the words for it, and the words for the power end the text. -/
theorem C69_words (d : Data) :
    ∃ x y, TurnoutPacket.printAll d = x ++ Spec.positionWords d.b4 ++ str " Power: " ++ y ++ Spec.powerWords d.b5 ∧
      (decAfter "Position: " x = some (d.b4.toNat : Int) ∧ x.getLast? = some 32#8) ∧ (y = str "0 " ∨ y = str "1 ") := by
  have hw : ∀ p : Byte, TurnoutPacket.positionText p = Spec.positionWords p := by decide +kernel
  have hp : ∀ b : Byte, (if !decide (b ≠ 0#8) then str "(off, button release)" else str "(on, button press)") = Spec.powerWords b := by
    decide +kernel
  refine ⟨str "Turnout: " ++ (hexSpaces 10 d.getLocid.toNat ++ (str ", " ++ (str "Human Value: " ++ (intText (d.getLocid + 1#32) ++ (str ", " ++
    (str "Position: " ++ (decText d.b4.toNat ++ str " "))))))), decText (TurnoutPacket.getPower d).toNat ++ str " ", ?_, ⟨?_, ?_⟩, ?_⟩
  · have h3 : str " Power: " = str " " ++ str "Power: " := by decide
    have hg : TurnoutPacket.getPower d = decide (d.b5 ≠ 0#8) := by
      unfold TurnoutPacket.getPower
      by_cases h : d.b5 = 0#8 <;> simp [h]
    rw [turnout_pieces, ← hw, ← hp, h3, hg]
    simp only [List.append_assoc]
  · have hsp := hexSpaces_lower 10 d.getLocid.toNat
    have hin := intText_lower (d.getLocid + 1#32)
    have := decAfter_dec "Position: " (str "Turnout: " ++ (hexSpaces 10 d.getLocid.toNat ++ (str ", " ++ (str "Human Value: " ++
      (intText (d.getLocid + 1#32) ++ str ", "))))) d.b4.toNat (str " ") (by decide)
      (misses_append _ _ _ (by decide) (misses_append _ _ _ (misses_upper _ 80#8 _ (by decide) (by decide) hsp)
        (misses_append _ _ _ (by decide) (misses_append _ _ _ (by decide)
          (misses_append _ _ _ (misses_upper _ 80#8 _ (by decide) (by decide) hin) (by decide))))))
      (by have := stops_str " " [] 32#8 [] (by decide) (by decide); rwa [List.append_nil] at this)
    simpa only [List.append_assoc] using this
  · simp only [← List.append_assoc]
    rw [getLast?_append_right _ _ (by decide)]
    decide
  · cases TurnoutPacket.getPower d with
    | false => left; rw [decText_eq]; decide
    | true => right; rw [decText_eq]; decide

/-- C69, as far as it is true: the "Human Value" in the log is the number of the turnout in its protocol, counted from 1, exactly
if the address carries no protocol tag. What is missing: accessory frames on the bus do carry one, see `C69_tagged`. -/
theorem C69_human_partial (d : Data) (k : Nat) (hk : Spec.turnoutNumber d.getLocid.toNat = some k) :
    decAfter "Human Value: " (TurnoutPacket.printAll d) = some (k : Int) ↔ Spec.accessoryOwner d.getLocid.toNat = .UNKNOWN := by
  rw [(C69_fields d).2.2.2, Option.some_inj, BitVec.toInt_eq_toNat_cond, BitVec.toNat_add]
  have := d.getLocid.isLt
  simp only [BitVec.toNat_ofNat, Nat.reducePow, Nat.reduceMod] at *
  generalize d.getLocid.toNat = n at *
  unfold Spec.turnoutNumber Spec.accessoryOwner at hk
  unfold Spec.accessoryOwner
  by_cases h1 : 0x2800 ≤ n ∧ n ≤ 0x2BFF
  · rw [if_pos h1] at hk ⊢
    simp only [Option.some_inj] at hk
    refine ⟨fun e => ?_, fun e => by cases e⟩
    split at e <;> omega
  rw [if_neg h1] at hk ⊢
  by_cases h2 : 0x3000 ≤ n ∧ n ≤ 0x33FF
  · rw [if_pos h2] at hk ⊢
    simp only [Option.some_inj] at hk
    refine ⟨fun e => ?_, fun e => by cases e⟩
    split at e <;> omega
  rw [if_neg h2] at hk ⊢
  by_cases h3 : 0x3800 ≤ n ∧ n ≤ 0x3FFF
  · rw [if_pos h3] at hk ⊢
    simp only [Option.some_inj] at hk
    refine ⟨fun e => ?_, fun e => by cases e⟩
    split at e <;> omega
  rw [if_neg h3] at hk ⊢
  by_cases h4 : n < 1024
  · simp only [if_pos h4, Option.some_inj] at hk
    refine ⟨fun _ => rfl, fun _ => ?_⟩
    split <;> omega
  · simp [if_neg h4] at hk

/-- C69: every address that a protocol owns has a number, and so has every address below 1024. -/
theorem C69_numbers (n : Nat) : (∃ k, Spec.turnoutNumber n = some k) ↔ Spec.accessoryOwner n ≠ .UNKNOWN ∨ n < 1024 := by
  unfold Spec.turnoutNumber Spec.accessoryOwner
  by_cases h1 : 0x2800 ≤ n ∧ n ≤ 0x2BFF
  · simp [if_pos h1]
  by_cases h2 : 0x3000 ≤ n ∧ n ≤ 0x33FF
  · simp [if_neg h1, if_pos h2]
  by_cases h3 : 0x3800 ≤ n ∧ n ≤ 0x3FFF
  · simp [if_neg h1, if_neg h2, if_pos h3]
  by_cases h4 : n < 1024 <;> simp [if_neg h1, if_neg h2, if_neg h3, h4]

/-- C69 is false for the frame that the library itself sends for the first MM2 turnout: the log calls it turnout 12289. -/
theorem C69_tagged :
    decAfter "Human Value: " (TurnoutPacket.printAll (Util.Turnout false (Util.MM2_Turnout 0#32) TurnoutDirection.GREEN true).data) =
      some 12289 := by
  rw [(C69_fields _).2.2.2]; decide +kernel

/-! ## C70: the log of sent accessory frames -/

theorem accessory_pieces (a : MachineTurnoutAddress) (p : RailProtocol) (dir : TurnoutDirection) (pw : Byte) :
    Station.accessoryText a p dir pw = str "Setting turnout " ++
      (decText ((a.addr ||| (getAccessoryLocIdMask p).addr) &&& ~~~0x3000#32).toNat ++ (str " to position " ++
        ((if dir = TurnoutDirection.RED then str "RED " else str "GREEN") ++ (str " " ++
          ((if pw != 0#8 then str "(ON) " else str "(OFF)") ++ str "\n"))))) := by
  unfold Station.accessoryText
  dsimp only
  have h1 : ∀ d : Data, (TurnoutPacket.getLocid (TurnoutPacket.setPower (TurnoutPacket.setDirection (TurnoutPacket.setLocid d
      (a.or (getAccessoryLocIdMask p))) dir) (pw != 0#8))).addr = a.addr ||| (getAccessoryLocIdMask p).addr := by
    intro d
    simp only [TurnoutPacket.getLocid, TurnoutPacket.setPower, TurnoutPacket.setDirection, TurnoutPacket.setLocid]
    exact (C02_roundtrip d (a.or (getAccessoryLocIdMask p)).addr).1
  have h2 : ∀ d : Data, TurnoutPacket.getDirection (TurnoutPacket.setPower (TurnoutPacket.setDirection d dir) (pw != 0#8)) = dir :=
    fun d => rfl
  have h3 : ∀ d : Data, TurnoutPacket.getPower (TurnoutPacket.setPower d (pw != 0#8)) = (pw != 0#8) := by
    intro d
    simp only [TurnoutPacket.getPower, TurnoutPacket.setPower]
    cases pw != 0#8 <;> decide
  rw [h1, h2, h3]
  simp only [List.append_assoc]

/-- The name of a position, as the enumerators are called. -/
def positionName (dir : TurnoutDirection) : Option (List Byte) :=
  match dir.toNat with
  | 0 => some (str "RED")
  | 1 => some (str "GREEN")
  | 2 => some (str "YELLOW")
  | 3 => some (str "WHITE")
  | _ => none

/-- C70, as far as it is true: with `LOG_CAN_OUT_MSG`, the number in the line for a sent accessory command is the address the
application asked for exactly for the MM protocols. What is missing: for the others it is another number, see `C70_dcc`. -/
theorem C70_number_partial (a : MachineTurnoutAddress) (p : RailProtocol) (dir : TurnoutDirection) (pw : Byte)
    (ha : a.addr.toNat < 2048) :
    decAfter "Setting turnout " (Station.accessoryText a p dir pw) = some (a.addr.toNat : Int) ↔
      Spec.accessoryFamily p = .MM1 := by
  have hd := decAfter_dec "Setting turnout " [] ((a.addr ||| (getAccessoryLocIdMask p).addr) &&& ~~~0x3000#32).toNat _ (by decide) rfl
    (stops_str " to position " ((if dir = TurnoutDirection.RED then str "RED " else str "GREEN") ++ (str " " ++
          ((if pw != 0#8 then str "(ON) " else str "(OFF)") ++ str "\n"))) 32#8 (str "to position ") (by decide) (by decide))
  simp only [List.nil_append] at hd
  rw [accessory_pieces, hd, Option.some_inj]
  have hlow : ∀ m : U32, ((a.addr ||| m) &&& ~~~0x3000#32) = a.addr &&& 0x7FF#32 ||| m &&& ~~~0x3000#32 := by
    intro m
    have e : a.addr = a.addr &&& 0x7FF#32 := by
      apply BitVec.eq_of_toNat_eq
      rw [toNat_mask _ 11 _ rfl]; omega
    rw [e]
    bits
  have hself : (a.addr &&& 0x7FF#32) = a.addr := by
    apply BitVec.eq_of_toNat_eq
    rw [toNat_mask _ 11 _ rfl]; omega
  rw [hlow, hself]
  have hbit : ∀ m : U32, (m &&& ~~~0x3000#32).getLsbD 11 = true → ¬ ((a.addr ||| m &&& ~~~0x3000#32).toNat : Int) = (a.addr.toNat : Int) := by
    intro m hm he
    have he : a.addr ||| m &&& ~~~0x3000#32 = a.addr := BitVec.eq_of_toNat_eq (by exact_mod_cast he)
    have h1 : (a.addr ||| m &&& ~~~0x3000#32).getLsbD 11 = true := by rw [BitVec.getLsbD_or, hm, Bool.or_true]
    have h2 : a.addr.getLsbD 11 = false := Nat.testBit_lt_two_pow ha
    rw [he, h2] at h1
    cases h1
  have hmm : ∀ m : U32, m &&& ~~~0x3000#32 = 0#32 → ((a.addr ||| m &&& ~~~0x3000#32).toNat : Int) = (a.addr.toNat : Int) := by
    intro m hm
    rw [hm, BitVec.or_zero]
  cases p
  · exact ⟨fun _ => rfl, fun _ => hmm _ (by decide)⟩
  · exact ⟨fun _ => rfl, fun _ => hmm _ (by decide)⟩
  · exact ⟨fun _ => rfl, fun _ => hmm _ (by decide)⟩
  · exact ⟨fun h => absurd h (hbit _ (by decide)), fun h => (by cases h)⟩
  · exact ⟨fun h => absurd h (hbit _ (by decide)), fun h => (by cases h)⟩
  · exact ⟨fun h => absurd h (hbit _ (by decide)), fun h => (by cases h)⟩
  · exact ⟨fun h => absurd h (hbit _ (by decide)), fun h => (by cases h)⟩

/-- C70 is not vacuous: an MM2 turnout. -/
example : decAfter "Setting turnout " (Station.accessoryText ⟨5#32⟩ .MM2 TurnoutDirection.RED 1#8) = some 5 :=
  (C70_number_partial ⟨5#32⟩ .MM2 TurnoutDirection.RED 1#8 (by decide)).mpr rfl

/-- C70 is false for DCC: the line for turnout 5 names turnout 2053. -/
theorem C70_dcc (dir : TurnoutDirection) (pw : Byte) :
    decAfter "Setting turnout " (Station.accessoryText ⟨5#32⟩ .DCC dir pw) = some 2053 := by
  have hd := decAfter_dec "Setting turnout " [] ((5#32 ||| (getAccessoryLocIdMask .DCC).addr) &&& ~~~0x3000#32).toNat _ (by decide) rfl
    (stops_str " to position " ((if dir = TurnoutDirection.RED then str "RED " else str "GREEN") ++ (str " " ++
          ((if pw != 0#8 then str "(ON) " else str "(OFF)") ++ str "\n"))) 32#8 (str "to position ") (by decide) (by decide))
  simp only [List.nil_append] at hd
  rw [accessory_pieces, hd]
  rfl

/-- C70, as far as it is true: the position in the line is the one the application asked for exactly for red and green. What is
missing: any other position is called green. -/
theorem C70_position_partial (a : MachineTurnoutAddress) (p : RailProtocol) (dir : TurnoutDirection) (pw : Byte) :
    (value (str "to position ") (Station.accessoryText a p dir pw) = positionName dir ↔
      dir = TurnoutDirection.RED ∨ dir = TurnoutDirection.GREEN) ∧
    (dir ≠ TurnoutDirection.RED → value (str "to position ") (Station.accessoryText a p dir pw) = some (str "GREEN")) := by
  have hv : value (str "to position ") (Station.accessoryText a p dir pw) =
      some (if dir = TurnoutDirection.RED then str "RED" else str "GREEN") := by
    have hm : misses (str "to position ") (decText ((a.addr ||| (getAccessoryLocIdMask p).addr) &&& ~~~0x3000#32).toNat) = true := by
      rw [label_eq "to position " 116#8 (by decide)]
      exact misses_number _ _ _ (by decide) (fun c hc => (decText_chars _ c hc).1)
    have hs : str " to position " = str " " ++ str "to position " := by decide
    rw [accessory_pieces, value, after_misses _ _ _ (by decide), after_misses _ _ _ hm, hs, List.append_assoc,
      after_misses _ (str " ") _ (by decide), after_here _ _ (by decide), Option.map_some]
    by_cases h : dir = TurnoutDirection.RED <;> cases pw != 0#8 <;> simp only [h, if_true, if_false] <;> decide
  refine ⟨?_, fun h => by rw [hv, if_neg h]⟩
  rw [hv]
  have key : ∀ dir : Byte, (some (if dir = TurnoutDirection.RED then str "RED" else str "GREEN") = positionName dir ↔
      dir = TurnoutDirection.RED ∨ dir = TurnoutDirection.GREEN) := by
    intro dir
    match h : dir.toNat with
    | 0 => have : dir = 0#8 := BitVec.eq_of_toNat_eq h
           subst this; decide
    | 1 => have : dir = 1#8 := BitVec.eq_of_toNat_eq h
           subst this; decide
    | 2 => have : dir = 2#8 := BitVec.eq_of_toNat_eq h
           subst this; decide
    | 3 => have : dir = 3#8 := BitVec.eq_of_toNat_eq h
           subst this; decide
    | n + 4 =>
      have h0 : dir ≠ TurnoutDirection.RED := by intro e; rw [e] at h; simp [TurnoutDirection.RED] at h
      have h1 : dir ≠ TurnoutDirection.GREEN := by intro e; rw [e] at h; simp [TurnoutDirection.GREEN] at h
      simp [positionName, h, h0, h1]
  exact key dir

/-- C70: the line ends with whether the power was to be on. -/
theorem C70_power (a : MachineTurnoutAddress) (p : RailProtocol) (dir : TurnoutDirection) (pw : Byte) :
    ∃ x, Station.accessoryText a p dir pw = x ++ (if pw = 0#8 then str " (OFF)\n" else str " (ON) \n") := by
  refine ⟨str "Setting turnout " ++ (decText ((a.addr ||| (getAccessoryLocIdMask p).addr) &&& ~~~0x3000#32).toNat ++
    (str " to position " ++ (if dir = TurnoutDirection.RED then str "RED " else str "GREEN"))), ?_⟩
  rw [accessory_pieces]
  simp only [List.append_assoc]
  have : str " " ++ ((if pw != 0#8 then str "(ON) " else str "(OFF)") ++ str "\n") = if pw = 0#8 then str " (OFF)\n" else str " (ON) \n" := by
    by_cases h : pw = 0#8 <;> simp [h] <;> decide
  rw [this]

/-! ## C73: the log and the callbacks tell the same -/

/-- What the log says for a system command. -/
def systemLine (text : String) : List Byte := str "System Command.  Subcommand: " ++ str text

/-- Only system commands have a log entry that begins with an S. -/
theorem packetText_head (s : Station) (processing : Bool) (f : CanFrame) (t : List Byte) (h : s.packetText processing f = .ok t)
    (ht : t.head? = some 83#8) : f.id.getCommand = kSystemCommand := by
  have lit : ∀ (a : String) (r : List Byte), (str a).head? ≠ some 83#8 → str a ≠ [] → (str a ++ r).head? ≠ some 83#8 := by
    intro a r h1 h2
    cases hs : str a with
    | nil => exact absurd hs h2
    | cons c cs => rw [hs] at h1; simpa using h1
  unfold Station.packetText at h
  dsimp only at h
  split at h
  · assumption
  split at h
  · cases h; cases ht
  split at h
  · cases h
    rw [List.append_assoc] at ht
    exact absurd ht (lit _ _ (by decide) (by decide))
  split at h
  · cases h; cases ht
  split at h
  · cases h; cases ht
  split at h
  · cases h; cases ht
  split at h
  · cases h; cases ht
  split at h
  · unfold Station.configDataText at h
    split at h
    · cases h; cases ht
    · obtain ⟨x, _, hx⟩ := bind_ok h
      cases hx
      exact absurd ht (lit _ _ (by decide) (by decide))
  split at h
  · obtain ⟨x, _, hx⟩ := bind_ok h
    cases hx
    rw [List.append_assoc] at ht
    exact absurd ht (lit _ _ (by decide) (by decide))
  · obtain ⟨x, _, hx⟩ := bind_ok h
    cases hx
    simp only [List.append_assoc] at ht
    exact absurd ht (lit _ _ (by decide) (by decide))

/-- C73: if the callbacks are installed, the log says GO, STOP or Halt for a frame exactly if the application is told so. -/
theorem C73_agrees (s : Station) (processing : Bool) (f : CanFrame) (sys eng : Nat) (hs : s.callbacks.system = some sys)
    (he : s.callbacks.engine = some eng) (t : List Byte) (calls : List Call) (ht : s.packetText processing f = .ok t)
    (hc : s.HandlePacket processing f = .ok calls) :
    (t = systemLine "GO!\n" ↔ calls = [.setSystemState sys true f.id.isResponse]) ∧
    (t = systemLine "STOP!\n" ↔ calls = [.setSystemState sys false f.id.isResponse]) ∧
    (t = systemLine "Halt!\n" ↔ calls = [.setAllVelocity eng 0#16]) := by
  by_cases hcmd : f.id.getCommand = kSystemCommand
  · unfold Station.packetText at ht
    unfold Station.HandlePacket at hc
    dsimp only at ht hc
    rw [if_pos hcmd] at ht hc
    have ht := (Except.ok.inj ht).symm
    unfold Station.systemText at ht
    unfold Station.HandleSystemCommand at hc
    by_cases hl : BaseMessage.length f.data ≥ 5#8
    · rw [if_pos hl] at ht hc
      dsimp only at hc
      have hsys : str "System Command. " ++ str " Subcommand: " = str "System Command.  Subcommand: " := by decide
      rw [← List.append_assoc, hsys] at ht
      have key : ∀ text : String, (t = systemLine text ↔ Station.subcommandText (SystemMessage.getSubcommand f.data) = str text) := by
        intro text
        rw [ht, systemLine]
        exact ⟨fun h => List.append_cancel_left h, fun h => by rw [h]⟩
      rw [key, key, key, hs, he] at *
      unfold Station.subcommandText
      generalize SystemMessage.getSubcommand f.data = sub at hc ⊢
      split at hc
      · next h => subst h; cases hc; simp; decide
      split at hc
      · next h => subst h; cases hc; simp; decide
      split at hc
      · next h => subst h; cases hc; simp; decide
      split at hc
      · next h => subst h; cases hc; simp; decide
      · next h1 h2 h3 h4 =>
        cases hc
        rw [if_neg h1, if_neg h2, if_neg h3, if_neg h4]
        simp only [List.nil_eq, reduceCtorEq, iff_false]
        split
        · decide
        split
        · decide
        split
        · decide
        split
        · decide
        · decide
    · rw [if_neg hl] at ht hc
      cases hc
      subst ht
      simp only [reduceCtorEq, iff_false]
      decide
  · have hne : ∀ text, t ≠ systemLine text := by
      intro text h
      exact hcmd (packetText_head s processing f t ht (by rw [h]; rfl))
    have hcalls : ∀ c ∈ calls, (∀ a b d, c ≠ .setSystemState a b d) ∧ (∀ a b, c ≠ .setAllVelocity a b) := by
      unfold Station.HandlePacket at hc
      dsimp only at hc
      rw [if_neg hcmd] at hc
      intro c hmem
      split at hc
      · cases hc; cases hmem
      split at hc
      · unfold Station.HandleAccessoryPacket at hc
        split at hc <;> cases hc <;> simp at hmem
        subst hmem; exact ⟨by intros; simp, by intros; simp⟩
      split at hc
      · unfold Station.HandleLocoDirection at hc
        simp only [he] at hc
        split at hc
        · split at hc
          · cases hc; simp at hmem; subst hmem; exact ⟨by intros; simp, by intros; simp⟩
          · split at hc <;> cases hc <;> simp at hmem
            subst hmem; exact ⟨by intros; simp, by intros; simp⟩
        · cases hc; cases hmem
      split at hc
      · unfold Station.HandleLocoSpeed at hc
        simp only [he] at hc
        split at hc <;> cases hc <;> simp at hmem
        subst hmem; exact ⟨by intros; simp, by intros; simp⟩
      split at hc
      · unfold Station.HandleLocoFunction at hc
        simp only [he] at hc
        split at hc <;> cases hc <;> simp at hmem
        subst hmem; exact ⟨by intros; simp, by intros; simp⟩
      split at hc
      · cases hc; cases hmem
      split at hc
      · unfold Station.HandleConfigDataStream at hc
        split at hc
        · obtain ⟨x, _, hx⟩ := bind_ok hc
          cases hx; cases hmem
        · split at hc
          · cases hc; simp at hmem; subst hmem; exact ⟨by intros; simp, by intros; simp⟩
          · obtain ⟨x, _, hx⟩ := bind_ok hc
            cases hx; cases hmem
      split at hc
      · obtain ⟨x, _, hx⟩ := bind_ok hc
        cases hx; cases hmem
      · obtain ⟨x, _, hx⟩ := bind_ok hc
        cases hx; cases hmem
    refine ⟨⟨fun h => absurd h (hne _), fun h => ?_⟩, ⟨fun h => absurd h (hne _), fun h => ?_⟩,
      ⟨fun h => absurd h (hne _), fun h => ?_⟩⟩
    · exact absurd (Eq.refl (Call.setSystemState sys true f.id.isResponse)) ((hcalls _ (by rw [h]; simp)).1 _ _ _)
    · exact absurd (Eq.refl (Call.setSystemState sys false f.id.isResponse)) ((hcalls _ (by rw [h]; simp)).1 _ _ _)
    · exact absurd (Eq.refl (Call.setAllVelocity eng 0#16)) ((hcalls _ (by rw [h]; simp)).2 _ _)

/-- C73: printing reads outside an object for exactly the same frames for which the handler does. -/
theorem C73_faults (s : Station) (processing : Bool) (f : CanFrame) :
    s.packetText processing f = .error .oobRead ↔ s.HandlePacket processing f = .error .oobRead := by
  have hdump : ∀ g : List Byte → List Byte, ((f.data.printAsText >>= fun x => .ok (g x) : Res (List Byte)) = .error .oobRead ↔
      (do let _ ← f.data.printed; .ok ([] : List Call) : Res (List Call)) = .error .oobRead) := by
    intro g
    by_cases h : f.data.dlc.toNat ≤ 9
    · rw [Data.printAsText, printed_eq _ h]; simp [bind, Except.bind]
    · rw [Data.printAsText, printed_overrun _ (by omega)]; simp [bind, Except.bind]
  have hhex : ∀ g : List Byte → List Byte, ((f.data.printAsHex >>= fun x => .ok (g x) : Res (List Byte)) = .error .oobRead ↔
      (do let _ ← f.data.printed; .ok ([] : List Call) : Res (List Call)) = .error .oobRead) := by
    intro g
    by_cases h : f.data.dlc.toNat ≤ 9
    · rw [Data.printAsHex, printed_eq _ h]; simp [bind, Except.bind]
    · rw [Data.printAsHex, printed_overrun _ (by omega)]; simp [bind, Except.bind]
  unfold Station.packetText Station.HandlePacket
  dsimp only
  split
  · unfold Station.HandleSystemCommand
    refine ⟨fun h => (by cases h), fun h => ?_⟩
    dsimp only at h
    repeat' split at h
    all_goals cases h
  split
  · simp
  split
  · unfold Station.HandleAccessoryPacket
    refine ⟨fun h => (by cases h), fun h => ?_⟩
    split at h <;> cases h
  split
  · unfold Station.HandleLocoDirection
    refine ⟨fun h => (by cases h), fun h => ?_⟩
    dsimp only at h
    repeat' split at h
    all_goals cases h
  split
  · unfold Station.HandleLocoSpeed
    refine ⟨fun h => (by cases h), fun h => ?_⟩
    dsimp only at h
    repeat' split at h
    all_goals cases h
  split
  · unfold Station.HandleLocoFunction
    refine ⟨fun h => (by cases h), fun h => ?_⟩
    repeat' split at h
    all_goals cases h
  split
  · simp
  split
  · unfold Station.configDataText Station.HandleConfigDataStream
    cases s.callbacks.configData with
    | none => exact hdump _
    | some cb =>
      cases processing with
      | true => simp
      | false => exact hdump _
  split
  · exact hdump _
  · exact hhex _

/-- C73 is not vacuous: a go command. -/
example : ({ callbacks := { system := some 0, engine := some 1 } } : Station).packetText false (Util.System_Go true) =
    .ok (systemLine "GO!\n") ∧
    ({ callbacks := { system := some 0, engine := some 1 } } : Station).HandlePacket false (Util.System_Go true) =
      .ok [.setSystemState 0 true true] := by
  decide +kernel

end RR32
