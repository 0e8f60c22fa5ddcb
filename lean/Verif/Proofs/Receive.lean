import Verif.Props.Packets
import Verif.Spec.Receive

/-! # `HandlePacket` computes exactly the specified reaction -/

set_option autoImplicit false

namespace RR32

theorem printed_ok (d : Data) (h : d.dlc.toNat ≤ 9) : ∃ l, d.printed = .ok l := by
  have key : ∀ l : List Nat, (∀ i ∈ l, i < 9) → ∃ r, l.mapM (fun i => peek d.bytes i) = (.ok r : Res (List Byte)) := by
    intro l
    induction l with
    | nil => intro _; exact ⟨[], rfl⟩
    | cons i l ih =>
      intro hl
      obtain ⟨r, hr⟩ := ih (fun j hj => hl j (List.mem_cons_of_mem _ hj))
      have hi : i < 9 := hl i (List.mem_cons_self ..)
      have : ∃ c, peek d.bytes i = .ok c := by
        have hlen : d.bytes.length = 9 := rfl
        have hi' : i < d.bytes.length := by omega
        refine ⟨d.bytes[i], ?_⟩
        simp only [peek, List.getElem?_eq_getElem hi']
      obtain ⟨c, hc⟩ := this
      exact ⟨c :: r, by simp [List.mapM_cons, hc, hr, bind, Except.bind, pure, Except.pure]⟩
  exact key _ (fun i hi => by have := List.mem_range.mp hi; omega)

theorem printed_overrun (d : Data) (h : 9 < d.dlc.toNat) : d.printed = .error .oobRead := by
  have key : ∀ l : List Nat, 9 ∈ l → l.mapM (fun i => peek d.bytes i) = (.error .oobRead : Res (List Byte)) := by
    intro l
    induction l with
    | nil => intro h; cases h
    | cons i l ih =>
      intro hl
      rw [List.mapM_cons]
      cases hp : peek d.bytes i with
      | error e =>
        have : e = .oobRead := by
          unfold peek at hp
          split at hp
          · cases hp
          · injection hp with hp; exact hp.symm
        subst this; rfl
      | ok c =>
        have hi : i ≠ 9 := by
          rintro rfl
          simp [peek, Data.bytes] at hp
        have : 9 ∈ l := by
          rcases List.mem_cons.mp hl with h | h
          · exact absurd h.symm hi
          · exact h
        simp only [bind, Except.bind]
        rw [ih this]
  exact key _ (List.mem_range.mpr h)

theorem getCommand_iff (f : CanFrame) (c : Byte) : f.id.getCommand = c ↔ Spec.commandOf f = c.toNat := by
  rw [← BitVec.toNat_inj, (C01_fields f.id).2.2.1]
  rfl

theorem isResponse_eq (f : CanFrame) : f.id.isResponse = Spec.responseOf f := by
  rw [Bool.eq_iff_iff, (C01_fields f.id).2.1]
  simp [Spec.responseOf]

theorem uidOf_eq (d : Data) : d.getLocid = Spec.uidOf d := by
  apply BitVec.eq_of_toNat_eq
  rw [C02_get, Spec.uidOf, BitVec.toNat_ofNat]
  have := d.b0.isLt; have := d.b1.isLt; have := d.b2.isLt; have := d.b3.isLt
  omega

/-- Dumping a payload: harmless within the buffer, an overrun otherwise. -/
theorem dump_eq (d : Data) :
    (do let _ ← d.printed; .ok ([] : List Call) : Res (List Call)) = if 9 < d.dlc.toNat then .error .oobRead else .ok [] := by
  split
  · next h => rw [printed_overrun d h]; rfl
  · next h =>
    obtain ⟨l, hl⟩ := printed_ok d (by omega)
    rw [hl]; rfl

theorem HandlePacket_eq (s : Station) (processing : Bool) (f : CanFrame) :
    s.HandlePacket processing f =
      if s.callbacks.engine = none ∧ Spec.needsEngine f = true then .error .nullDeref
      else if Spec.dumped s.callbacks processing f = true ∧ 9 < f.data.dlc.toNat then .error .oobRead
      else .ok (Spec.reaction s.callbacks processing f) := by
  have hd : ∀ n : Nat, n < 256 → (f.data.dlc = BitVec.ofNat 8 n ↔ f.data.dlc.toNat = n) := by
    intro n hn
    rw [← BitVec.toNat_inj, BitVec.toNat_ofNat, Nat.mod_eq_of_lt hn]
  have h4 : ∀ n : Nat, n < 256 → (f.data.b4 = BitVec.ofNat 8 n ↔ f.data.b4.toNat = n) := by
    intro n hn
    rw [← BitVec.toNat_inj, BitVec.toNat_ofNat, Nat.mod_eq_of_lt hn]
  simp only [Station.HandlePacket, getCommand_iff, kSystemCommand, kPing, kAccessorySwitch, kLocoDirection, kLocoSpeed,
    kLocoFunction, kRequestConfigData, kConfigDataStream, kDebugText, dump_eq, BitVec.toNat_ofNat, isResponse_eq]
  have hlt : Spec.commandOf f < 256 := Nat.mod_lt _ (by decide)
  by_cases c0 : Spec.commandOf f = 0x00
  · have n1 : Spec.needsEngine f = false := by simp [Spec.needsEngine, c0]
    have n2 : Spec.dumped s.callbacks processing f = false := by simp [Spec.dumped, c0]
    rw [if_pos (by simpa using c0), n1, n2, if_neg (by simp), if_neg (by simp)]
    simp only [Spec.reaction, c0, Station.HandleSystemCommand, BaseMessage.length, GE.ge, BitVec.le_def, BitVec.toNat_ofNat,
      SystemMessage.getSubcommand, kSubcommandSystemGo, kSubcommandSystemHalt, kSubcommandSystemStop,
      kSubcommandLocoEmergencyStop, SystemMessage.getLocid, uidOf_eq, isResponse_eq]
    by_cases hl : 5 ≤ f.data.dlc.toNat
    · rw [if_pos (by simpa using hl), if_pos hl]
      simp only [h4 1 (by decide), h4 2 (by decide), h4 0 (by decide), h4 3 (by decide)]
      by_cases e1 : f.data.b4.toNat = 1
      · rw [if_pos e1, e1]; cases s.callbacks.system <;> rfl
      · by_cases e2 : f.data.b4.toNat = 2
        · rw [if_neg e1, if_pos e2, e2]; cases s.callbacks.engine <;> rfl
        · by_cases e0 : f.data.b4.toNat = 0
          · rw [if_neg e1, if_neg e2, if_pos e0, e0]; cases s.callbacks.system <;> rfl
          · by_cases e3 : f.data.b4.toNat = 3
            · rw [if_neg e1, if_neg e2, if_neg e0, if_pos e3, e3]; cases s.callbacks.engine <;> rfl
            · rw [if_neg e1, if_neg e2, if_neg e0, if_neg e3]
              split <;> first | (exfalso; omega) | rfl
    · rw [if_neg (by simpa using hl), if_neg hl]
  rw [if_neg (by simpa using c0)]
  by_cases c1 : Spec.commandOf f = 0x18
  · rw [if_pos (by simpa using c1)]
    simp [Spec.needsEngine, Spec.dumped, Spec.reaction, c1]
  rw [if_neg (by simpa using c1)]
  by_cases c2 : Spec.commandOf f = 0x0B
  · rw [if_pos (by simpa using c2)]
    simp only [Spec.needsEngine, Spec.dumped, Spec.reaction, c2, Station.HandleAccessoryPacket]
    cases s.callbacks.accessory <;> simp [Spec.toward]
  rw [if_neg (by simpa using c2)]
  by_cases c3 : Spec.commandOf f = 0x05
  · have n2 : Spec.dumped s.callbacks processing f = false := by simp [Spec.dumped, c3]
    rw [if_pos (by simpa using c3), n2]
    simp only [Spec.needsEngine, Spec.reaction, c3, Station.HandleLocoDirection, uidOf_eq]
    simp only [hd 5 (by decide)]
    by_cases hl : f.data.dlc.toNat = 5
    · have z : ∀ n : Nat, n < 256 → ((f.data.b4.zeroExtend 32 : EngineDirection) = BitVec.ofNat 32 n ↔ f.data.b4.toNat = n) := by
        intro n hn
        have := f.data.b4.isLt
        rw [← BitVec.toNat_inj]
        simp only [BitVec.truncate_eq_setWidth, BitVec.toNat_setWidth, BitVec.toNat_ofNat]
        omega
      rw [if_pos hl]
      simp only [EngineDirection.FORWARD, EngineDirection.REVERSE, EngineDirection.CHANGE_DIRECTION, z 1 (by decide),
        z 2 (by decide), z 3 (by decide), hl]
      by_cases e1 : f.data.b4.toNat = 1
      · have := (z 1 (by decide)).mpr e1
        rw [if_pos (Or.inl e1), e1, this]
        cases s.callbacks.engine <;> simp [Spec.toward]
      · by_cases e2 : f.data.b4.toNat = 2
        · have := (z 2 (by decide)).mpr e2
          rw [if_pos (Or.inr e2), e2, this]
          cases s.callbacks.engine <;> simp [Spec.toward]
        · rw [if_neg (by omega)]
          by_cases e3 : f.data.b4.toNat = 3
          · rw [if_pos e3, e3]
            cases s.callbacks.engine <;> simp [Spec.toward]
          · rw [if_neg e3, if_neg (by simp [e1, e2, e3])]
            simp only [Bool.false_eq_true, false_and, if_false]
            split <;> rfl
    · rw [if_neg hl]
      simp [hl]
  rw [if_neg (by simpa using c3)]
  by_cases c4 : Spec.commandOf f = 0x04
  · rw [if_pos (by simpa using c4)]
    have n1 : Spec.needsEngine f = false := by simp [Spec.needsEngine, c4]
    have n2 : Spec.dumped s.callbacks processing f = false := by simp [Spec.dumped, c4]
    rw [n1, n2]
    simp only [Spec.reaction, c4, Station.HandleLocoSpeed, uidOf_eq]
    simp only [hd 6 (by decide)]
    by_cases hl : f.data.dlc.toNat = 6
    · have v : (f.data.b4.zeroExtend 16 <<< 8 ||| f.data.b5.zeroExtend 16 : U16) =
          BitVec.ofNat 16 (f.data.b4.toNat * 2 ^ 8 + f.data.b5.toNat) := by
        have := f.data.b4.isLt
        have := f.data.b5.isLt
        apply BitVec.eq_of_toNat_eq
        rw [toNat_or_disjoint _ _ (by bits)]
        simp only [toNat_shl]; simp; omega
      rw [if_pos hl, v]
      cases s.callbacks.engine <;> simp [Spec.toward, hl]
    · rw [if_neg hl]; simp [hl]
  rw [if_neg (by simpa using c4)]
  by_cases c5 : Spec.commandOf f = 0x06
  · rw [if_pos (by simpa using c5)]
    have n2 : Spec.dumped s.callbacks processing f = false := by simp [Spec.dumped, c5]
    rw [n2]
    simp only [Spec.needsEngine, Spec.reaction, c5, Station.HandleLocoFunction, uidOf_eq]
    simp only [hd 6 (by decide)]
    by_cases hl : f.data.dlc.toNat = 6
    · have v : (f.data.b5 != 0#8) = decide (f.data.b5.toNat ≠ 0) := by
        rw [Bool.eq_iff_iff, bne_iff_ne, decide_eq_true_iff, ne_eq, ne_eq, ← BitVec.toNat_inj]
        rfl
      rw [if_pos hl, v]
      cases s.callbacks.engine <;> simp [Spec.toward, hl]
    · rw [if_neg hl]; simp [hl]
  rw [if_neg (by simpa using c5)]
  by_cases c6 : Spec.commandOf f = 0x20
  · rw [if_pos (by simpa using c6)]
    simp [Spec.needsEngine, Spec.dumped, Spec.reaction, c6]
  rw [if_neg (by simpa using c6)]
  have n1 : Spec.needsEngine f = false := by
    simp only [Spec.needsEngine, decide_eq_false_iff_not]; omega
  by_cases c7 : Spec.commandOf f = 0x21
  · rw [if_pos (by simpa using c7), n1]
    simp only [Spec.dumped, Spec.reaction, c7, Station.HandleConfigDataStream, dump_eq]
    cases s.callbacks.configData <;> cases processing <;> simp [Spec.toward]
  rw [if_neg (by simpa using c7)]
  have n2 : Spec.dumped s.callbacks processing f = true := by
    simp only [Spec.dumped, decide_eq_true_iff]; omega
  have n3 : Spec.reaction s.callbacks processing f = [] := by
    unfold Spec.reaction
    simp only []
  rw [n1, n2, n3]
  simp

end RR32
