import Verif.Proofs.Receive
import Verif.Proofs.World

/-! # C11 to C15: handling received frames -/

set_option autoImplicit false

namespace RR32

/-! ## C11 -/

/-- The decision table: a station reacts to every frame of at most 8 bytes exactly as documented. (Only the engine callback must be
installed for this; a missing other callback drops out of the table.) -/
theorem C11_decision_table (s : Station) (processing : Bool) (f : CanFrame) (hd : f.data.dlc.toNat ≤ 8)
    (he : s.callbacks.engine.isSome = true) :
    s.HandlePacket processing f = .ok (Spec.reaction s.callbacks processing f) := by
  rw [HandlePacket_eq, if_neg (by rintro ⟨h, _⟩; simp [h] at he), if_neg (by omega)]

/-- At most one callback is invoked per frame. -/
theorem C11_at_most_one (s : Station) (processing : Bool) (f : CanFrame) (calls : List Call)
    (h : s.HandlePacket processing f = .ok calls) : calls.length ≤ 1 := by
  have ht : ∀ (cb : Option Nat) (g : Nat → Call), (Spec.toward cb g).length ≤ 1 := by
    intro cb g; cases cb <;> simp [Spec.toward]
  rw [HandlePacket_eq] at h
  split at h
  · cases h
  · split at h
    · cases h
    · injection h with h
      subst h
      unfold Spec.reaction
      simp only []
      repeat' split
      all_goals first | exact ht _ _ | simp

/-- The rows of the table spelled out for a station with callbacks 1 to 5, as a reader would check them. -/
theorem C11_rows (hash : U16) (processing : Bool) (f : CanFrame) (hd : f.data.dlc.toNat ≤ 8) :
    let s : Station := { senderHash := hash, callbacks := ⟨some 1, some 2, some 3, some 4, some 5⟩ }
    let cmd := f.id.getCommand.toNat
    let d := f.data
    (cmd = 0x00 → 5 ≤ d.dlc.toNat → d.b4 = 0#8 → s.HandlePacket processing f = .ok [.setSystemState 2 false f.id.isResponse]) ∧
    (cmd = 0x00 → 5 ≤ d.dlc.toNat → d.b4 = 1#8 → s.HandlePacket processing f = .ok [.setSystemState 2 true f.id.isResponse]) ∧
    (cmd = 0x00 → 5 ≤ d.dlc.toNat → d.b4 = 2#8 → s.HandlePacket processing f = .ok [.setAllVelocity 3 0#16]) ∧
    (cmd = 0x00 → 5 ≤ d.dlc.toNat → d.b4 = 3#8 → s.HandlePacket processing f = .ok [.setLocoVelocity 3 d.getLocid 0#16]) ∧
    (cmd = 0x00 → (d.dlc.toNat < 5 ∨ 3 < d.b4.toNat) → s.HandlePacket processing f = .ok []) ∧
    (cmd = 0x04 → d.dlc = 6#8 → ∃ v : U16, v.toNat = d.b4.toNat * 256 + d.b5.toNat ∧
      s.HandlePacket processing f = .ok [.setLocoVelocity 3 d.getLocid v]) ∧
    (cmd = 0x04 → d.dlc ≠ 6#8 → s.HandlePacket processing f = .ok []) ∧
    (cmd = 0x05 → d.dlc = 5#8 → d.b4 = 1#8 → s.HandlePacket processing f = .ok [.setLocoDirection 3 d.getLocid .FORWARD]) ∧
    (cmd = 0x05 → d.dlc = 5#8 → d.b4 = 2#8 → s.HandlePacket processing f = .ok [.setLocoDirection 3 d.getLocid .REVERSE]) ∧
    (cmd = 0x05 → d.dlc = 5#8 → d.b4 = 3#8 → s.HandlePacket processing f = .ok [.changeLocoDirection 3 d.getLocid]) ∧
    (cmd = 0x05 → (d.dlc ≠ 5#8 ∨ d.b4 = 0#8 ∨ 3 < d.b4.toNat) → s.HandlePacket processing f = .ok []) ∧
    (cmd = 0x06 → d.dlc = 6#8 → s.HandlePacket processing f = .ok [.setLocoFunction 3 d.getLocid d.b4 (d.b5 != 0#8)]) ∧
    (cmd = 0x06 → d.dlc ≠ 6#8 → s.HandlePacket processing f = .ok []) ∧
    (cmd = 0x0B → s.HandlePacket processing f = .ok [.onAccessoryPacket 4 d f.id.isResponse]) ∧
    (cmd = 0x21 → s.HandlePacket processing f = .ok (if processing then [.cfgAdd 5 d] else [])) ∧
    (cmd ≠ 0x00 → cmd ≠ 0x04 → cmd ≠ 0x05 → cmd ≠ 0x06 → cmd ≠ 0x0B → cmd ≠ 0x21 → s.HandlePacket processing f = .ok []) := by
  intro s cmd d
  have hcmd : cmd = Spec.commandOf f := (C01_fields f.id).2.2.1
  have H : s.HandlePacket processing f = .ok (Spec.reaction s.callbacks processing f) :=
    C11_decision_table s processing f hd rfl
  have hn : ∀ (x : Byte) (n : Nat), n < 256 → (x = BitVec.ofNat 8 n ↔ x.toNat = n) := by
    intro x n hn
    rw [← BitVec.toNat_inj, BitVec.toNat_ofNat, Nat.mod_eq_of_lt hn]
  have hu : d.getLocid = Spec.uidOf f.data := uidOf_eq f.data
  have hr : f.id.isResponse = Spec.responseOf f := isResponse_eq f
  rw [H, hu, hr]
  unfold Spec.reaction
  rw [← hcmd]
  refine ⟨?_, ?_, ?_, ?_, ?_, ?_, ?_, ?_, ?_, ?_, ?_, ?_, ?_, ?_, ?_, ?_⟩
  · intro hc h1 h2
    rw [hn _ 0 (by decide)] at h2
    simp only [hc]; rw [if_pos h1, h2]; rfl
  · intro hc h1 h2
    rw [hn _ 1 (by decide)] at h2
    simp only [hc]; rw [if_pos h1, h2]; rfl
  · intro hc h1 h2
    rw [hn _ 2 (by decide)] at h2
    simp only [hc]; rw [if_pos h1, h2]; rfl
  · intro hc h1 h2
    rw [hn _ 3 (by decide)] at h2
    simp only [hc]; rw [if_pos h1, h2]; rfl
  · intro hc h
    simp only [hc]
    split
    · rcases h with h | h
      · have h' : f.data.dlc.toNat < 5 := h
        exfalso; omega
      · have h' : 3 < f.data.b4.toNat := h
        split <;> first | rfl | (exfalso; omega)
    · rfl
  · intro hc h
    rw [hn _ 6 (by decide)] at h
    refine ⟨BitVec.ofNat 16 (f.data.b4.toNat * 2 ^ 8 + f.data.b5.toNat), ?_, ?_⟩
    · have h4 : f.data.b4.toNat < 256 := f.data.b4.isLt
      have h5 : f.data.b5.toNat < 256 := f.data.b5.isLt
      rw [BitVec.toNat_ofNat]
      show _ = f.data.b4.toNat * 256 + f.data.b5.toNat
      omega
    · simp only [hc]; rw [if_pos h]; rfl
  · intro hc h
    rw [ne_eq, hn _ 6 (by decide)] at h
    simp only [hc]; rw [if_neg h]
  · intro hc h1 h2
    rw [hn _ 5 (by decide)] at h1
    rw [hn _ 1 (by decide)] at h2
    simp only [hc]; rw [if_pos h1, h2]; rfl
  · intro hc h1 h2
    rw [hn _ 5 (by decide)] at h1
    rw [hn _ 2 (by decide)] at h2
    simp only [hc]; rw [if_pos h1, h2]; rfl
  · intro hc h1 h2
    rw [hn _ 5 (by decide)] at h1
    rw [hn _ 3 (by decide)] at h2
    simp only [hc]; rw [if_pos h1, h2]; rfl
  · intro hc h
    rw [ne_eq, hn _ 5 (by decide), hn _ 0 (by decide)] at h
    simp only [hc]
    have h' : ¬f.data.dlc.toNat = 5 ∨ f.data.b4.toNat = 0 ∨ 3 < f.data.b4.toNat := h
    split
    · split <;> first | rfl | (exfalso; omega)
    · rfl
  · intro hc h
    rw [hn _ 6 (by decide)] at h
    have v : (f.data.b5 != 0#8) = decide (f.data.b5.toNat ≠ 0) := by
      rw [Bool.eq_iff_iff, bne_iff_ne, decide_eq_true_iff, ne_eq, ne_eq, ← BitVec.toNat_inj]
      rfl
    simp only [hc]; rw [if_pos h, ← v]; rfl
  · intro hc h
    rw [ne_eq, hn _ 6 (by decide)] at h
    simp only [hc]; rw [if_neg h]
  · intro hc
    simp only [hc]; rfl
  · intro hc
    simp only [hc]; rfl
  · intro h1 h2 h3 h4 h5 h6
    clear_value cmd
    simp only []

/-- Non-vacuity: a speed frame, a stop request, a halt with a byte too few. -/
example :
    let s : Station := { callbacks := ⟨some 1, some 2, some 3, some 4, some 5⟩ }
    s.HandlePacket false { id := ⟨0x00080000#32⟩, data := { dlc := 6#8, b3 := 7#8, b4 := 1#8, b5 := 2#8 } } =
      .ok [.setLocoVelocity 3 7#32 258#16] ∧
    s.HandlePacket false { id := ⟨0#32⟩, data := { dlc := 5#8 } } = .ok [.setSystemState 2 false false] ∧
    s.HandlePacket false { id := ⟨0#32⟩, data := { dlc := 4#8, b4 := 2#8 } } = .ok [] := by decide

/-! ## C12 -/

/-- Null callbacks on receive, exactly: the station calls through a null callback if and only if no engine callback is installed and
the frame is a direction command or a function command.
Partial: the claim says this never happens. It is true for all frames but these two kinds. -/
theorem C12_null_callback_partial (s : Station) (processing : Bool) (f : CanFrame) :
    s.HandlePacket processing f = .error .nullDeref ↔ s.callbacks.engine = none ∧ Spec.needsEngine f = true := by
  rw [HandlePacket_eq]
  split
  · next h => simp [h]
  · next h =>
    split
    · simp [h]
    · simp [h]

/-- For every other frame of at most 8 bytes, missing callbacks just drop the message: the calls are those of the decision table
restricted to the installed callbacks. -/
theorem C12_missing_ignored (s : Station) (processing : Bool) (f : CanFrame) (hd : f.data.dlc.toNat ≤ 8)
    (hn : s.callbacks.engine.isSome = true ∨ Spec.needsEngine f = false) :
    s.HandlePacket processing f = .ok (Spec.reaction s.callbacks processing f) := by
  rw [HandlePacket_eq, if_neg, if_neg (by omega)]
  rintro ⟨h1, h2⟩
  rcases hn with h | h
  · simp [h1] at h
  · simp [h] at h2

/-- The claim is false: a station that only listens for accessories crashes on a direction command and on a function command. -/
theorem C12_negation :
    (∃ (s : Station) (f : CanFrame), f.data.dlc.toNat ≤ 8 ∧ f.id.getCommand = 0x05#8 ∧
      s.HandlePacket false f = .error .nullDeref) ∧
    (∃ (s : Station) (f : CanFrame), f.data.dlc.toNat ≤ 8 ∧ f.id.getCommand = 0x06#8 ∧
      s.HandlePacket false f = .error .nullDeref) :=
  ⟨⟨{ callbacks := { accessory := some 1 } }, Util.LocoDirection false 1#32 EngineDirection.FORWARD, by decide, by decide,
      by decide⟩,
   ⟨{ callbacks := { accessory := some 1 } }, Util.LocoFunction false 1#32 0#8 true, by decide, by decide, by decide⟩⟩

/-- Non-vacuity: the same station ignores a speed command. -/
example : ({ callbacks := { accessory := some 1 } } : Station).HandlePacket false (Util.LocoSpeed false 1#32 5#16) = .ok [] ∧
    Spec.needsEngine (Util.LocoSpeed false 1#32 5#16) = false := by decide

/-! ## C13 -/

/-- Two calls that cannot be told apart by a callback that looks only at the first `dlc` bytes of a payload. -/
def Call.sameContent : Call → Call → Prop
  | .onAccessoryPacket a d r, .onAccessoryPacket b e s => a = b ∧ r = s ∧ d.eq e = .ok true
  | .cfgAdd a d, .cfgAdd b e => a = b ∧ d.eq e = .ok true
  | c, c' => c = c'

theorem Data.eq_bytes {d e : Data} (hd : d.dlc.toNat ≤ 8) (h : d.eq e = .ok true) :
    d.dlc = e.dlc ∧ (0 < d.dlc.toNat → d.b0 = e.b0) ∧ (1 < d.dlc.toNat → d.b1 = e.b1) ∧ (2 < d.dlc.toNat → d.b2 = e.b2) ∧
    (3 < d.dlc.toNat → d.b3 = e.b3) ∧ (4 < d.dlc.toNat → d.b4 = e.b4) ∧ (5 < d.dlc.toNat → d.b5 = e.b5) ∧
    (6 < d.dlc.toNat → d.b6 = e.b6) ∧ (7 < d.dlc.toNat → d.b7 = e.b7) := by
  obtain ⟨r, h1, h2⟩ := C03_payload_eq d e (by omega)
  rw [h1] at h
  injection h with h
  obtain ⟨hl, hb⟩ := h2.mp h
  refine ⟨hl, ?_, ?_, ?_, ?_, ?_, ?_, ?_, ?_⟩
  · intro hi; simpa [Data.bytes] using hb 0 hi
  · intro hi; simpa [Data.bytes] using hb 1 hi
  · intro hi; simpa [Data.bytes] using hb 2 hi
  · intro hi; simpa [Data.bytes] using hb 3 hi
  · intro hi; simpa [Data.bytes] using hb 4 hi
  · intro hi; simpa [Data.bytes] using hb 5 hi
  · intro hi; simpa [Data.bytes] using hb 6 hi
  · intro hi; simpa [Data.bytes] using hb 7 hi

/-- Two received frames that compare equal cause the same calls. For the two callbacks that are handed the payload itself, the
payloads compare equal; every other call is identical.
Partial: for accessory frames shorter than 6 bytes the callback can see (and `TurnoutPacket`'s accessors do read) stale bytes, see
`C13_negation`; for the config data callback of the library, see `C13_stream`. -/
theorem C13_equal_frames_partial (s : Station) (processing : Bool) (f g : CanFrame) (hd : f.data.dlc.toNat ≤ 8)
    (h : f.eq g = .ok true) :
    (∃ e, s.HandlePacket processing f = .error e ∧ s.HandlePacket processing g = .error e) ∨
    (∃ cs ds, s.HandlePacket processing f = .ok cs ∧ s.HandlePacket processing g = .ok ds ∧
      List.Forall₂ Call.sameContent cs ds) := by
  obtain ⟨r, h1, h2⟩ := C03_frame_eq f g (by omega)
  rw [h1] at h
  injection h with h
  obtain ⟨hid, hdata⟩ := h2.mp h
  obtain ⟨hl, e0, e1, e2, e3, e4, e5, _, _⟩ := Data.eq_bytes hd hdata
  have hc : Spec.commandOf f = Spec.commandOf g := by simp [Spec.commandOf, hid]
  have hr : Spec.responseOf f = Spec.responseOf g := by simp [Spec.responseOf, hid]
  have hneed : Spec.needsEngine f = Spec.needsEngine g := by
    simp only [Spec.needsEngine, hc, ← hl]
    by_cases h5 : f.data.dlc.toNat = 5
    · rw [e4 (by omega)]
    · simp [h5]
  have hdump : Spec.dumped s.callbacks processing f = Spec.dumped s.callbacks processing g := by
    simp only [Spec.dumped, hc]
  have hu : 4 ≤ f.data.dlc.toNat → Spec.uidOf f.data = Spec.uidOf g.data := by
    intro h4
    simp only [Spec.uidOf, e0 (by omega), e1 (by omega), e2 (by omega), e3 (by omega)]
  have hforall : ∀ (cb : Option Nat) (k k' : Nat → Call), (∀ n, Call.sameContent (k n) (k' n)) →
      List.Forall₂ Call.sameContent (Spec.toward cb k) (Spec.toward cb k') := by
    intro cb k k' hk
    cases cb with
    | none => exact .nil
    | some n => exact .cons (hk n) .nil
  have hreact : List.Forall₂ Call.sameContent (Spec.reaction s.callbacks processing f) (Spec.reaction s.callbacks processing g) := by
    unfold Spec.reaction
    rw [← hc, ← hr, ← hl]
    simp only []
    split
    · split
      · rw [← e4 (by omega), ← hu (by omega)]
        split <;> first | exact .nil | exact hforall _ _ _ (fun _ => rfl)
      · exact .nil
    · split
      · rw [← e4 (by omega), ← e5 (by omega), ← hu (by omega)]
        exact hforall _ _ _ (fun _ => rfl)
      · exact .nil
    · split
      · rw [← e4 (by omega), ← hu (by omega)]
        split <;> first | exact .nil | exact hforall _ _ _ (fun _ => rfl)
      · exact .nil
    · split
      · rw [← e4 (by omega), ← e5 (by omega), ← hu (by omega)]
        exact hforall _ _ _ (fun _ => rfl)
      · exact .nil
    · exact hforall _ _ _ (fun _ => ⟨rfl, rfl, hdata⟩)
    · split
      · exact hforall _ _ _ (fun _ => ⟨rfl, hdata⟩)
      · exact .nil
    · exact .nil
  rw [HandlePacket_eq, HandlePacket_eq, ← hneed, ← hdump, ← hl]
  split
  · exact Or.inl ⟨_, rfl, rfl⟩
  · split
    · exact Or.inl ⟨_, rfl, rfl⟩
    · exact Or.inr ⟨_, _, rfl, rfl, hreact⟩

/-- For accessory frames of at least 6 bytes the decoded values agree. -/
theorem C13_accessory_decoded (d e : Data) (hd : d.dlc.toNat ≤ 8) (h6 : 6 ≤ d.dlc.toNat) (h : d.eq e = .ok true) :
    TurnoutPacket.getLocid d = TurnoutPacket.getLocid e ∧ TurnoutPacket.getDirection d = TurnoutPacket.getDirection e ∧
    TurnoutPacket.getPower d = TurnoutPacket.getPower e ∧ TurnoutPacket.getRailProtocol d = TurnoutPacket.getRailProtocol e ∧
    TurnoutPacket.eq d e = true := by
  obtain ⟨hl, e0, e1, e2, e3, e4, e5, _, _⟩ := Data.eq_bytes hd h
  have hu : d.getLocid = e.getLocid := by
    simp only [Data.getLocid, e0 (by omega), e1 (by omega), e2 (by omega), e3 (by omega)]
  refine ⟨?_, e4 (by omega), ?_, ?_, ?_⟩
  · simp only [TurnoutPacket.getLocid, hu]
  · simp only [TurnoutPacket.getPower, e5 (by omega)]
  · rw [getRailProtocol_eq, getRailProtocol_eq, hu]
  · rw [C08_eq]
    refine ⟨hu, ?_, ?_⟩
    · simp [Data.bytes, e4 (by omega)]
    · simp [Data.bytes, e5 (by omega)]

/-- The claim is false for accessory frames: with dlc 0 the reported address, direction and power come from stale bytes. -/
theorem C13_negation : ∃ (s : Station) (f g : CanFrame) (d e : Data), f.data.dlc.toNat ≤ 8 ∧ f.eq g = .ok true ∧
    s.HandlePacket false f = .ok [.onAccessoryPacket 0 d false] ∧ s.HandlePacket false g = .ok [.onAccessoryPacket 0 e false] ∧
    TurnoutPacket.getLocid d ≠ TurnoutPacket.getLocid e ∧ TurnoutPacket.getDirection d ≠ TurnoutPacket.getDirection e ∧
    TurnoutPacket.getPower d ≠ TurnoutPacket.getPower e :=
  ⟨{ callbacks := { accessory := some 0 } }, { id := Identifier.mk' kAccessorySwitch 0#16 },
    { id := Identifier.mk' kAccessorySwitch 0#16, data := { b3 := 9#8, b4 := 1#8, b5 := 1#8 } }, {},
    { b3 := 9#8, b4 := 1#8, b5 := 1#8 }, by decide, by decide, by decide, by decide, by decide, by decide, by decide⟩

/-- Non-vacuity: two speed frames that differ only behind the dlc. -/
example : (⟨Identifier.mk' kLocoSpeed 0#16, { dlc := 6#8, b5 := 1#8, b6 := 1#8 }⟩ : CanFrame).eq
    ⟨Identifier.mk' kLocoSpeed 0#16, { dlc := 6#8, b5 := 1#8, b7 := 2#8 }⟩ = .ok true := by decide

/-! ## C14 -/

/-- Handling a frame asks for no transmission. -/
theorem C14_no_tx (s : Station) (processing : Bool) (f : CanFrame) (calls : List Call)
    (h : s.HandlePacket processing f = .ok calls) (c : Call) (hc : c ∈ calls) :
    (∀ cb g, c ≠ .tx cb g) ∧ (∀ cb, c ≠ .cfgStart cb) ∧ (∀ cb, c ≠ .cfgReset cb) := by
  rw [HandlePacket_eq] at h
  split at h
  · cases h
  · split at h
    · cases h
    · injection h with h
      subst h
      have ht : ∀ (cb : Option Nat) (k : Nat → Call), c ∈ Spec.toward cb k → ∃ n, c = k n := by
        intro cb k hm
        simp only [Spec.toward, List.mem_map] at hm
        obtain ⟨n, _, rfl⟩ := hm
        exact ⟨n, rfl⟩
      unfold Spec.reaction at hc
      simp only [] at hc
      repeat' split at hc
      all_goals first
        | (cases hc)
        | (obtain ⟨n, rfl⟩ := ht _ _ hc
           exact ⟨fun _ _ => Call.noConfusion, fun _ => Call.noConfusion, fun _ => Call.noConfusion⟩)

/-- In every program state, handling a received frame leaves the station (callbacks, sender hash) as it is and transmits nothing,
including everything stream parsers and consumers do in reaction. -/
theorem C14_receive_is_passive (w w' : World) (f : CanFrame) (h : w.step (.handle f) = .ok w') :
    w'.station = w.station ∧ ∃ new, w'.log = w.log ++ new ∧ ∀ cb g, LogEntry.call (.tx cb g) ∉ new := by
  obtain ⟨calls, h1, h2⟩ := bind_ok h
  obtain ⟨hs, _, l, hl, hn⟩ := World.runCalls_log w w' calls h2
  refine ⟨hs, l, hl, ?_⟩
  intro cb g hm
  rcases hn _ hm with hq | ⟨c, hc, he⟩
  · exact hq
  · injection he with he
    exact (C14_no_tx w.station w.processing f calls h1 c hc).1 cb g he.symm

/-- Non-vacuity: a frame that does cause a callback. -/
example : ({ callbacks := { system := some 1 } } : Station).HandlePacket false (Util.System_Go true) =
    .ok [.setSystemState 1 true true] := by decide

/-! ## C15 -/

/-- Out-of-bounds accesses while handling a frame, exactly: only when the payload is dumped and the dlc exceeds the nine-byte
buffer. In particular none for any frame that can be on a CAN bus. -/
theorem C15_bounds (s : Station) (processing : Bool) (f : CanFrame) :
    (s.HandlePacket processing f = .error .oobRead ↔ Spec.dumped s.callbacks processing f = true ∧ 9 < f.data.dlc.toNat) ∧
    s.HandlePacket processing f ≠ .error .oobWrite ∧
    (f.data.dlc.toNat ≤ 8 → s.HandlePacket processing f ≠ .error .oobRead) := by
  rw [HandlePacket_eq]
  by_cases h1 : s.callbacks.engine = none ∧ Spec.needsEngine f = true
  · rw [if_pos h1]
    have hd : Spec.dumped s.callbacks processing f = false := by
      have := h1.2
      simp only [Spec.needsEngine, decide_eq_true_iff] at this
      simp only [Spec.dumped, decide_eq_false_iff_not]
      omega
    simp [hd]
  · rw [if_neg h1]
    split
    · next h => simp only [h]; simp; omega
    · next h => simp [h]

/-- Handling a frame of at most 8 bytes meets no fault of any kind but the null engine callback of C12. -/
theorem C15_faults (s : Station) (processing : Bool) (f : CanFrame) (e : Fault) (hd : f.data.dlc.toNat ≤ 8)
    (h : s.HandlePacket processing f = .error e) : e = .nullDeref ∧ s.callbacks.engine = none ∧ Spec.needsEngine f = true := by
  rw [HandlePacket_eq] at h
  split at h
  · next hc => injection h with h; exact ⟨h.symm, hc⟩
  · rw [if_neg (by omega)] at h; cases h

/-- Non-vacuity: a debug text with dlc 10 overruns, one with dlc 8 does not; an S88 event with dlc 10 overruns, a system command
does not. -/
example :
    ({} : Station).HandlePacket false { id := Identifier.mk' kDebugText 0#16, data := { dlc := 10#8 } } = .error .oobRead ∧
    ({} : Station).HandlePacket false { id := Identifier.mk' kDebugText 0#16, data := { dlc := 8#8 } } = .ok [] ∧
    ({} : Station).HandlePacket false { id := Identifier.mk' kS88Event 0#16, data := { dlc := 10#8 } } = .error .oobRead ∧
    ({} : Station).HandlePacket false { id := Identifier.mk' kSystemCommand 0#16, data := { dlc := 10#8 } } = .ok [] := by
  decide

end RR32
