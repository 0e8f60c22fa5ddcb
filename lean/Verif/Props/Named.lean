import Verif.Props.Console
import Verif.Spec.Named

/-! # C96: the log says what was received -/

set_option autoImplicit false

namespace RR32

open Spec (commandOf logged kind Kind shown subcommandWords dump dumpByte)

theorem subcommand_words : ∀ b : Byte, Station.subcommandText b = subcommandWords b := by decide +kernel

/-- C96: what the station prints about a frame with at most 8 bytes, to the letter. -/
theorem C96_logged (s : Station) (processing : Bool) (f : CanFrame) (hd : f.data.dlc.toNat ≤ 8) :
    s.packetText processing f = .ok (logged TurnoutPacket.printAll (s.callbacks.configData.isSome && processing) f) := by
  have hcmd : f.id.getCommand.toNat = commandOf f := (C01_fields f.id).2.2.1
  have htext : f.data.printAsText = .ok (shown f.data) := C66_text f.data (by omega)
  have hhex : f.data.printAsHex = .ok (dump (shown f.data)) := C66_exact f.data (by omega)
  unfold Station.packetText logged Station.configDataText
  dsimp only
  rw [← hcmd]
  generalize f.id.getCommand = c
  by_cases h0 : c = 0x00#8
  · subst h0
    simp only [kSystemCommand, if_true]
    simp only [Station.systemText, BaseMessage.length, ge_iff_le, BitVec.le_def, BitVec.toNat_ofNat, Nat.reduceMod, Nat.reducePow,
      SystemMessage.getSubcommand, subcommand_words]
    split
    · rw [← List.append_assoc]; rfl
    · rfl
  by_cases h4 : c = 0x04#8
  · subst h4; rfl
  by_cases h5 : c = 0x05#8
  · subst h5; rfl
  by_cases h6 : c = 0x06#8
  · subst h6; rfl
  by_cases hB : c = 0x0B#8
  · subst hB; rfl
  by_cases h18 : c = 0x18#8
  · subst h18; rfl
  by_cases h20 : c = 0x20#8
  · subst h20; rfl
  by_cases h21 : c = 0x21#8
  · subst h21
    show (if (s.callbacks.configData.isSome && processing) = true then _ else _) = _
    rw [htext]
    show _ = Except.ok (if (s.callbacks.configData.isSome && processing) = true then _ else _)
    split <;> rfl
  by_cases h42 : c = 0x42#8
  · subst h42
    rw [htext]; rfl
  have e : ∀ {α : Type} (k : Byte) (x y : α), ¬ c = k → (if c = k then x else y) = y := fun _ _ _ h => if_neg h
  rw [e kSystemCommand _ _ h0, e kPing _ _ h18, e kAccessorySwitch _ _ hB, e kLocoDirection _ _ h5, e kLocoSpeed _ _ h4,
    e kLocoFunction _ _ h6, e kRequestConfigData _ _ h20, e kConfigDataStream _ _ h21, e kDebugText _ _ h42, hhex, dumpByte_eq]
  have hn : ∀ n : Nat, c.toNat = n → c = BitVec.ofNat 8 n := fun n h => by rw [← h, BitVec.ofNat_toNat, BitVec.setWidth_eq]
  split
  · next h => exact absurd (hn _ h) h0
  · next h => exact absurd (hn _ h) h4
  · next h => exact absurd (hn _ h) h5
  · next h => exact absurd (hn _ h) h6
  · next h => exact absurd (hn _ h) hB
  · next h => exact absurd (hn _ h) h18
  · next h => exact absurd (hn _ h) h20
  · next h => exact absurd (hn _ h) h21
  · next h => exact absurd (hn _ h) h42
  · rw [BitVec.ofNat_toNat, BitVec.setWidth_eq]; rfl

/-- The first letter of what is printed. -/
theorem logged_head (wanted : Bool) (details : Data → List Byte) (f : CanFrame) :
    (logged details wanted f).head? = (match kind wanted f with
      | .silent => none | .system => some 83#8 | .accessory => some 65#8 | .stream => some 73#8 | .debug => some 68#8
      | .other _ _ => some 85#8) := by
  unfold logged
  split
  · next h => rw [kind, h]; split <;> rfl
  · next h => rw [kind, h]; rfl
  · next h => rw [kind, h]; rfl
  · next h => rw [kind, h]; rfl
  · next h => rw [kind, h]; rfl
  · next h => rw [kind, h]; rfl
  · next h => rw [kind, h]; rfl
  · next h => rw [kind, h]; cases wanted <;> rfl
  · next h => rw [kind, h]; rfl
  · next h0 h4 h5 h6 hB h18 h20 h21 h42 =>
    have : kind wanted f = .other (commandOf f) (shown f.data) := by
      unfold kind
      split <;> first | contradiction | rfl
    rw [this]; rfl

theorem dumpByte_injective (a b : Byte) (x y : List Byte) (h : dumpByte a ++ 10#8 :: x = dumpByte b ++ 10#8 :: y) :
    a = b ∧ x = y := by
  have hl : ∀ a : Byte, (dumpByte a ++ [10#8]).takeWhile (· != 10#8) = dumpByte a := by decide +kernel
  have hi : ∀ a b : Byte, dumpByte a = dumpByte b → a = b := by
    intro a b h
    have hr : ∀ a : Byte, Spec.readDump (32#8 :: dumpByte a) = some [a] := fun a => by
      have := readDump_dump [a]
      simpa [dumpByte_eq, show ch ' ' = 32#8 by decide] using this
    have := hr a
    rw [h, hr b] at this
    simpa using this.symm
  have ht : ∀ (a : Byte) (x : List Byte), (dumpByte a ++ 10#8 :: x).takeWhile (· != 10#8) = dumpByte a := by
    intro a x
    have := hl a
    rw [List.takeWhile_append] at this ⊢
    split at this
    · next hc => rw [if_pos hc]; simp at this ⊢
    · next hc => rw [if_neg hc]; exact this
  have e : dumpByte a = dumpByte b := by rw [← ht a x, h, ht b y]
  refine ⟨hi a b e, ?_⟩
  rw [e] at h
  exact (List.cons.inj (List.append_cancel_left h)).2

/-- Frames with the same text are of the same kind. -/
theorem logged_legible (details : Data → List Byte) (v w : Bool) (f g : CanFrame) (h : logged details v f = logged details w g) :
    kind v f = kind w g := by
  have hh := logged_head v details f
  rw [h, logged_head w details g] at hh
  cases hf : kind v f <;> cases hg : kind w g <;> rw [hf, hg] at hh <;> try first | rfl | (simp at hh; done)
  next c p c' p' =>
  have key : ∀ (v : Bool) (f : CanFrame) (c : Nat) (p : List Byte), kind v f = .other c p → c < 256 ∧
      logged details v f = str "Unknown or not implemented. Dump: " ++ dumpByte (BitVec.ofNat 8 c) ++ str "\n" ++ dump p ++ str "\n" := by
    intro v f c p hk
    have hc : commandOf f < 256 := Nat.mod_lt _ (by decide)
    unfold kind at hk
    unfold logged
    split at hk <;> first
      | cases hk
      | (split at hk <;> cases hk)
    refine ⟨hc, ?_⟩
    split <;> first | contradiction | rfl
  obtain ⟨hc, e⟩ := key v f c p hf
  obtain ⟨hc', e'⟩ := key w g c' p' hg
  rw [e, e'] at h
  simp only [List.append_assoc] at h
  have h := dumpByte_injective _ _ _ _ (List.append_cancel_left h)
  have hp : dump p = dump p' := List.append_cancel_right h.2
  have hcc : c = c' := by
    have := congrArg BitVec.toNat h.1
    simpa [Nat.mod_eq_of_lt hc, Nat.mod_eq_of_lt hc'] using this
  have hr : ∀ p : List Byte, Spec.readDump (dump p) = some p := fun p => by
    have := readDump_dump p
    simpa [dumpByte_eq, dump, show ch ' ' = 32#8 by decide] using this
  have hpp : p = p' := by
    have := hr p
    rw [hp, hr p'] at this
    exact (Option.some.inj this).symm
  rw [hcc, hpp]

/-- C96: if two stations print the same about two frames with at most 8 bytes, the frames are of the same kind, and if they are of a
kind that the stations do not know, they have the same command and the same payload. -/
theorem C96_legible (s s' : Station) (p p' : Bool) (f g : CanFrame) (hf : f.data.dlc.toNat ≤ 8) (hg : g.data.dlc.toNat ≤ 8)
    (h : s.packetText p f = s'.packetText p' g) :
    kind (s.callbacks.configData.isSome && p) f = kind (s'.callbacks.configData.isSome && p') g := by
  rw [C96_logged s p f hf, C96_logged s' p' g hg] at h
  exact logged_legible _ _ _ _ _ (Except.ok.inj h)

/-- Subcommands with the same words are equal or unknown. -/
theorem words_legible (a b : Byte) (h : subcommandWords a = subcommandWords b) :
    a = b ∨ (subcommandWords a = str "unknown.\n" ∧ subcommandWords b = str "unknown.\n") := by
  have hs : ∀ a : Byte, subcommandWords a = str "unknown.\n" ∨ a ∈ [0x00#8, 0x01#8, 0x02#8, 0x03#8, 0x0A#8, 0x0B#8, 0x0C#8, 0x80#8] := by
    decide +kernel
  have hk : ∀ a ∈ [0x00#8, 0x01#8, 0x02#8, 0x03#8, 0x0A#8, 0x0B#8, 0x0C#8, 0x80#8],
      ∀ b ∈ [0x00#8, 0x01#8, 0x02#8, 0x03#8, 0x0A#8, 0x0B#8, 0x0C#8, 0x80#8], subcommandWords a = subcommandWords b → a = b := by
    decide +kernel
  rcases hs a with ha | ha
  · exact .inr ⟨ha, by rw [← h, ha]⟩
  · rcases hs b with hb | hb
    · exact .inr ⟨by rw [h, hb], hb⟩
    · exact .inl (hk a ha b hb h)

/-- C96: what is printed about a system frame names its subcommand: if the same is printed about two frames with 5 to 8 bytes, they have
the same subcommand or the log calls both unknown. -/
theorem C96_subcommands (s s' : Station) (p p' : Bool) (f g : CanFrame) (hf : 5 ≤ f.data.dlc.toNat ∧ f.data.dlc.toNat ≤ 8)
    (hg : 5 ≤ g.data.dlc.toNat ∧ g.data.dlc.toNat ≤ 8) (cf : commandOf f = 0) (cg : commandOf g = 0)
    (h : s.packetText p f = s'.packetText p' g) :
    f.data.b4 = g.data.b4 ∨ s.packetText p f = .ok (str "System Command.  Subcommand: unknown.\n") := by
  rw [C96_logged s p f hf.2] at h ⊢
  rw [C96_logged s' p' g hg.2] at h
  have e : ∀ (w : Bool) (f : CanFrame), commandOf f = 0 → 5 ≤ f.data.dlc.toNat →
      logged TurnoutPacket.printAll w f = str "System Command.  Subcommand: " ++ subcommandWords f.data.b4 := by
    intro w f hc hl
    rw [logged, hc]
    exact if_pos hl
  rw [e _ _ cf hf.1] at h ⊢
  rw [e _ _ cg hg.1] at h
  rcases words_legible _ _ (List.append_cancel_left (Except.ok.inj h)) with h | ⟨h, _⟩
  · exact .inl h
  · right
    rw [h]
    decide +kernel

/-- C96 is not vacuous: an overload is reported. -/
example : (Station.packetText {} false { id := ⟨0#32⟩, data := { dlc := 5#8, b4 := 0x0A#8 } }) =
    .ok (str "System Command.  Subcommand: OVERLOAD!\n") := by rw [C96_logged _ _ _ (by decide)]; decide +kernel

/-- A frame with a command that the station does not know. -/
example : (Station.packetText {} false { id := ⟨0x360000#32⟩, data := { dlc := 2#8, b0 := 7#8, b1 := 0xAB#8 } }) =
    .ok (str "Unknown or not implemented. Dump: 0x1b\n 0x7 0xab\n") := by rw [C96_logged _ _ _ (by decide)]; decide +kernel

end RR32
