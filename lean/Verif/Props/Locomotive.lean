import Verif.Model.Locomotive
import Verif.Proofs.Strings

/-! # C54 to C57: engines -/

set_option autoImplicit false

namespace RR32

open Spec

/-! ## C54 -/

theorem name_memory (m : List Byte) :
    let mem := (text m).take 32 ++ List.replicate (32 - (text m).length) 0#8 ++ [0#8]
    mem.length = 33 ∧ Terminated mem ∧ text mem = (text m).take 32 := by
  intro mem
  refine ⟨by simp [mem]; omega, by simp [mem, Terminated], ?_⟩
  simp only [mem]
  rw [List.append_assoc, show List.replicate (32 - (text m).length) (0#8 : Byte) ++ [0#8] = List.replicate (32 - (text m).length + 1) 0#8 by
    rw [List.replicate_succ']]
  exact text_append_zeros _ ((text_noNul m).take 32) _

theorem shortInfo_setName (s : ShortInfo) (m : List Byte) (h : Readable 32 m) :
    s.setName m = .ok { availability := .NAME_KNOWN, name := (text m).take 32 ++ List.replicate (32 - (text m).length) 0#8 ++ [0#8] } := by
  have := strncpy_text (List.replicate 33 0#8) m 32 h (by simp)
  simp only [ShortInfo.setName, ShortInfo.reset, ShortInfo.eraseName, kEngineNameLength, bind, Except.bind]
  rw [this]
  simp

theorem locomotive_setName (l : Locomotive) (m : List Byte) (h : Readable 32 m) :
    l.setName m = .ok { info := { availability := .NAME_KNOWN, name := (text m).take 32 ++ List.replicate (32 - (text m).length) 0#8 ++ [0#8] },
                        data := {}, protocol := List.replicate 8 0#8 } := by
  have := strncpy_text (List.replicate 33 0#8) m 32 h (by simp)
  simp only [Locomotive.setName, Locomotive.reset, ShortInfo.reset, ShortInfo.eraseName, kEngineNameLength, bind, Except.bind,
    LocomotiveData.reset, Locomotive.kProtocolNameMaxLength]
  rw [this]
  simp

/-- C54: `setName` on an entry of the engine browser, in any state. -/
theorem C54_setName (s : ShortInfo) (m : List Byte) (h : Readable 32 m) :
    ∃ t, s.setName m = .ok t ∧ t.availability = .NAME_KNOWN ∧ t.name.length = 33 ∧ Terminated t.name ∧ text t.name = (text m).take 32 := by
  obtain ⟨h1, h2, h3⟩ := name_memory m
  exact ⟨_, shortInfo_setName s m h, rfl, h1, h2, h3⟩

/-- C54: `setName` on an engine, in any state. -/
theorem C54_setName_engine (l : Locomotive) (m : List Byte) (h : Readable 32 m) :
    ∃ k, l.setName m = .ok k ∧ k.info.availability = .NAME_KNOWN ∧ k.info.name.length = 33 ∧ Terminated k.info.name ∧
      text k.info.name = (text m).take 32 ∧ k.data.uid = 0#32 ∧ k.data.velocity = 0#16 ∧ k.data.direction = EngineDirection.UNKNOWN ∧
      k.data.address.addr = 0#32 ∧ k.data.functionBits = 0#32 ∧ text k.protocol = [] ∧ k.protocol.length = 8 := by
  obtain ⟨h1, h2, h3⟩ := name_memory m
  exact ⟨_, locomotive_setName l m h, rfl, h1, h2, h3, rfl, rfl, rfl, rfl, rfl, rfl, rfl⟩

/-- C54: a name that is neither terminated nor 32 bytes long is read past its end. -/
theorem C54_unreadable (l : Locomotive) (m : List Byte) (h : ¬Readable 32 m) : l.setName m = .error .oobRead := by
  simp only [Locomotive.setName, strncpy, kEngineNameLength, strncpyBytes_fault 32 m h, bind, Except.bind]

/-- The name is known already, as far as names go. -/
def SameName (s : ShortInfo) (m : List Byte) : Prop := s.availability ≠ .EMPTY ∧ (text m).take 32 = (text s.name).take 32

/-- C54: `setNameConditional` on an entry of the engine browser. -/
theorem C54_conditional (s : ShortInfo) (hs : s.name.length = 33) (m : List Byte) (h : Readable 32 m) :
    (SameName s m → s.setNameConditional m = .ok (s, false)) ∧
    (¬SameName s m → ∃ t, s.setName m = .ok t ∧ s.setNameConditional m = .ok (t, true)) := by
  have hb : Readable 32 s.name := Or.inl (by omega)
  by_cases he : s.availability = .EMPTY
  · refine ⟨fun hn => absurd he hn.1, fun _ => ⟨_, shortInfo_setName s m h, ?_⟩⟩
    simp only [ShortInfo.setNameConditional, if_pos he, shortInfo_setName s m h, bind, Except.bind, pure, Except.pure]
  · have hc := strncmpEq_text 32 m s.name h hb
    by_cases hn : (text m).take 32 = (text s.name).take 32
    · refine ⟨fun _ => ?_, fun hh => absurd ⟨he, hn⟩ hh⟩
      simp only [ShortInfo.setNameConditional, if_neg he, kEngineNameLength, hc, hn, decide_true, bind, Except.bind, if_true, pure, Except.pure]
    · refine ⟨fun hh => absurd hh.2 hn, fun _ => ⟨_, shortInfo_setName s m h, ?_⟩⟩
      simp only [ShortInfo.setNameConditional, if_neg he, kEngineNameLength, hc, hn, decide_false, bind, Except.bind, Bool.false_eq_true, if_false,
        pure, Except.pure, shortInfo_setName s m h]

/-- C54: `setNameConditional` on an engine. -/
theorem C54_conditional_engine (l : Locomotive) (hl : l.info.name.length = 33) (m : List Byte) (h : Readable 32 m) :
    (SameName l.info m → l.setNameConditional m = .ok (l, false)) ∧
    (¬SameName l.info m → ∃ k, l.setName m = .ok k ∧ l.setNameConditional m = .ok (k, true)) := by
  have hb : Readable 32 l.info.name := Or.inl (by omega)
  by_cases he : l.info.availability = .EMPTY
  · refine ⟨fun hn => absurd he hn.1, fun _ => ⟨_, locomotive_setName l m h, ?_⟩⟩
    simp only [Locomotive.setNameConditional, if_pos he, locomotive_setName l m h, bind, Except.bind, pure, Except.pure]
  · have hc := strncmpEq_text 32 m l.info.name h hb
    by_cases hn : (text m).take 32 = (text l.info.name).take 32
    · refine ⟨fun _ => ?_, fun hh => absurd ⟨he, hn⟩ hh⟩
      simp only [Locomotive.setNameConditional, if_neg he, kEngineNameLength, hc, hn, decide_true, bind, Except.bind, if_true, pure, Except.pure]
    · refine ⟨fun hh => absurd hh.2 hn, fun _ => ⟨_, locomotive_setName l m h, ?_⟩⟩
      simp only [Locomotive.setNameConditional, if_neg he, kEngineNameLength, hc, hn, decide_false, bind, Except.bind, Bool.false_eq_true, if_false,
        pure, Except.pure, locomotive_setName l m h]

/-- C54: the second of two equal calls changes nothing. -/
theorem C54_twice (l : Locomotive) (hl : l.info.name.length = 33) (m : List Byte) (h : Readable 32 m) :
    ∃ k b, l.setNameConditional m = .ok (k, b) ∧ k.info.name.length = 33 ∧ SameName k.info m ∧ k.setNameConditional m = .ok (k, false) := by
  by_cases hs : SameName l.info m
  · have := (C54_conditional_engine l hl m h).1 hs
    exact ⟨l, false, this, hl, hs, this⟩
  · obtain ⟨k, h1, h2⟩ := (C54_conditional_engine l hl m h).2 hs
    obtain ⟨k', h3, h4, h5, h6, h7, -⟩ := C54_setName_engine l m h
    rw [h1] at h3
    cases h3
    have hk : SameName k.info m := ⟨by rw [h4]; decide, by rw [h7, List.take_take]; rfl⟩
    exact ⟨k, true, h2, h5, hk, (C54_conditional_engine k h5 m h).1 hk⟩

/-- C54: a name of 40 characters is cut, and the same name again changes nothing. -/
example : ∃ k, (Locomotive.construct []).setName (List.replicate 40 65#8 ++ [0#8]) = .ok k ∧ text k.info.name = List.replicate 32 65#8 ∧
    k.setNameConditional (List.replicate 35 65#8 ++ [0#8]) = .ok (k, false) := ⟨_, rfl, by decide, rfl⟩

/-! ## C55 -/

/-- C55, exactly: the stored protocol is terminated if and only if the text has at most 7 characters; then it is that text. -/
theorem C55_exactly (l : Locomotive) (hl : l.protocol.length = 8) (m : List Byte) (h : Readable 8 m) :
    ∃ k, l.setProtocolString m = .ok k ∧ k.protocol.length = 8 ∧ k.info = l.info ∧ k.data = l.data ∧ text k.protocol = (text m).take 8 ∧
      (Terminated k.protocol ↔ (text m).length < 8) := by
  have hc := strncpy_text l.protocol m 8 h (by omega)
  rw [List.drop_eq_nil_of_le (by omega), List.append_nil] at hc
  have ht := text_append_zeros _ ((text_noNul m).take 8) (8 - (text m).length)
  have hlen : ((text m).take 8 ++ List.replicate (8 - (text m).length) (0#8 : Byte)).length = 8 := by simp; omega
  refine ⟨{ l with protocol := (text m).take 8 ++ List.replicate (8 - (text m).length) 0#8 }, ?_, hlen, rfl, rfl, ht, ?_⟩
  · simp only [Locomotive.setProtocolString, Locomotive.kProtocolNameMaxLength, hc, bind, Except.bind]
  · rw [terminated_iff]
    simp only [ht, hlen]
    simp
    omega

/-- C55, for protocol texts of at most 7 characters. Missing: longer texts, for which it is false (`C55_false`). -/
theorem C55_terminated_partial (l : Locomotive) (hl : l.protocol.length = 8) (m : List Byte) (h : Terminated m) (h7 : (text m).length ≤ 7) :
    ∃ k, l.setProtocolString m = .ok k ∧ Terminated k.protocol ∧ cstr k.protocol = .ok (text m) := by
  obtain ⟨k, h1, -, -, -, h5, h6⟩ := C55_exactly l hl m (terminated_readable h 8)
  have ht := h6.mpr (by omega)
  exact ⟨k, h1, ht, (cstr_iff _ _).mpr ⟨ht, by rw [h5, List.take_of_length_le (by omega)]⟩⟩

/-- C55 is false: 8 characters or more are stored without terminator, and printing the engine reads past the field. -/
theorem C55_false (l : Locomotive) (hl : l.protocol.length = 8) (hn : Terminated l.info.name) (m : List Byte) (h : Terminated m)
    (h8 : 8 ≤ (text m).length) :
    ∃ k, l.setProtocolString m = .ok k ∧ ¬Terminated k.protocol ∧ (k.setAvailability .FULL_DETAILS).print = .error .oobRead := by
  obtain ⟨k, h1, -, h3, -, -, h6⟩ := C55_exactly l hl m (terminated_readable h 8)
  have ht : ¬Terminated k.protocol := fun ht => by have := h6.mp ht; omega
  refine ⟨k, h1, ht, ?_⟩
  have hp : cstr k.protocol = .error .oobRead := by
    apply cstr_noNul
    rw [← not_terminated_text ht]
    exact text_noNul _
  have hi : cstr k.info.name = .ok (text k.info.name) := cstr_text (by rw [h3]; exact hn)
  simp only [Locomotive.print, ShortInfo.print, Locomotive.setAvailability, bind, Except.bind, hi, hp, pure, Except.pure, if_true]
  rfl

/-- C55: both cases occur. -/
example : (∃ k, (Locomotive.construct []).setProtocolString (lit "mm2_prg") = .ok k ∧ Terminated k.protocol) ∧
    (∃ k, (Locomotive.construct []).setProtocolString (lit "mm2_prog") = .ok k ∧ ¬Terminated k.protocol) :=
  ⟨⟨_, rfl, by unfold Terminated; decide⟩, ⟨_, rfl, by unfold Terminated; decide⟩⟩

/-! ## C56 -/

theorem functionMask_ok (f : Byte) (h : f.toNat < 32) : LocomotiveData.functionMask f = .ok (1#32 <<< f.toNat) := if_pos h

theorem mask_bit (f : Nat) (g : Nat) : ((1#32 <<< f : U32)).getLsbD g = (decide (g < 32) && decide (g = f)) := by
  simp only [BitVec.getLsbD_shiftLeft, BitVec.getLsbD_one]
  by_cases h : g = f
  · subst h; simp
  · have : (decide (g - f = 0) && !decide (g < f)) = false := by simp; omega
    simp only [h, decide_false, Bool.and_false]
    by_cases h1 : g < f
    · simp [h1]
    · have : ¬(g - f = 0) := by omega
      simp [this]

theorem getFunction_bit (l : LocomotiveData) (f : Byte) (h : f.toNat < 32) : l.getFunction f = .ok (l.functionBits.getLsbD f.toNat) := by
  simp only [LocomotiveData.getFunction, functionMask_ok f h, bind, Except.bind]
  congr 1
  cases hb : l.functionBits.getLsbD f.toNat with
  | true =>
    rw [bne_iff_ne]
    intro hz
    have := congrArg (fun b : U32 => b.getLsbD f.toNat) hz
    simp only [BitVec.getLsbD_and, hb, mask_bit, h, decide_true, Bool.and_true, BitVec.getLsbD_zero] at this
    cases this
  | false =>
    rw [bne_eq_false_iff_eq]
    apply BitVec.eq_of_getLsbD_eq
    intro i hi
    rw [BitVec.getLsbD_and, mask_bit]
    by_cases he : i = f.toNat
    · subst he; simp [hb]
    · simp [he]

theorem setFunction_bit (l : LocomotiveData) (f : Byte) (v : Bool) (h : f.toNat < 32) :
    ∃ k, l.setFunction f v = .ok k ∧ k = { l with functionBits := k.functionBits } ∧
      ∀ i, k.functionBits.getLsbD i = if i = f.toNat then v else l.functionBits.getLsbD i := by
  simp only [LocomotiveData.setFunction, functionMask_ok f h, bind, Except.bind]
  cases v with
  | true =>
    refine ⟨_, rfl, rfl, fun i => ?_⟩
    rw [BitVec.getLsbD_or, mask_bit]
    by_cases he : i = f.toNat
    · subst he; simp [h]
    · simp [he]
  | false =>
    refine ⟨_, rfl, rfl, fun i => ?_⟩
    rw [BitVec.getLsbD_and, BitVec.getLsbD_not, mask_bit]
    by_cases he : i = f.toNat
    · subst he; simp [h]
    · by_cases hi : i < 32
      · simp [he, hi]
      · rw [BitVec.getLsbD_of_ge _ _ (by omega)]; simp [he]

/-- C56: what one write does. -/
theorem C56_set (l : LocomotiveData) (f : Byte) (v : Bool) (h : f.toNat < 32) :
    ∃ k, l.setFunction f v = .ok k ∧ k.getFunction f = .ok v ∧
      (∀ g : Byte, g.toNat < 32 → g ≠ f → k.getFunction g = l.getFunction g) ∧
      k.uid = l.uid ∧ k.velocity = l.velocity ∧ k.direction = l.direction ∧ k.address = l.address ∧ k.setFunction f v = .ok k := by
  obtain ⟨k, h1, h2, h3⟩ := setFunction_bit l f v h
  refine ⟨k, h1, ?_, ?_, by rw [h2], by rw [h2], by rw [h2], by rw [h2], ?_⟩
  · rw [getFunction_bit k f h, h3, if_pos rfl]
  · intro g hg hne
    rw [getFunction_bit k g hg, getFunction_bit l g hg, h3, if_neg (fun e => hne (BitVec.eq_of_toNat_eq e))]
  · obtain ⟨k', h4, h5, h6⟩ := setFunction_bit k f v h
    rw [h4, h5]
    congr 1
    have : k'.functionBits = k.functionBits := by
      apply BitVec.eq_of_getLsbD_eq
      intro i _
      rw [h6, h3]
      split <;> rfl
    rw [this]

/-- A sequence of writes. -/
def writeFunctions (l : LocomotiveData) : List (Byte × Bool) → Res LocomotiveData
  | [] => .ok l
  | w :: ws => do
      let k ← l.setFunction w.1 w.2
      writeFunctions k ws

/-- The value a function has after writes: the last one written, or else the one before. -/
def lastWrite (f : Byte) (before : Bool) : List (Byte × Bool) → Bool
  | [] => before
  | w :: ws => lastWrite f (if w.1 = f then w.2 else before) ws

/-- C56: the last write wins, in any sequence of writes. -/
theorem C56_sequence (l : LocomotiveData) (ws : List (Byte × Bool)) (h : ∀ w ∈ ws, w.1.toNat < 32) :
    ∃ k, writeFunctions l ws = .ok k ∧ k.uid = l.uid ∧ k.velocity = l.velocity ∧ k.direction = l.direction ∧ k.address = l.address ∧
      ∀ f : Byte, f.toNat < 32 → ∃ before, l.getFunction f = .ok before ∧ k.getFunction f = .ok (lastWrite f before ws) := by
  induction ws generalizing l with
  | nil => exact ⟨l, rfl, rfl, rfl, rfl, rfl, fun f hf => ⟨_, getFunction_bit l f hf, getFunction_bit l f hf⟩⟩
  | cons w ws ih =>
    obtain ⟨k, h1, h2, h3⟩ := setFunction_bit l w.1 w.2 (h w (List.mem_cons_self ..))
    obtain ⟨m, e1, e2, e3, e4, e5, e6⟩ := ih k (fun x hx => h x (List.mem_cons_of_mem _ hx))
    refine ⟨m, by simp only [writeFunctions, h1, bind, Except.bind, e1], by rw [e2, h2], by rw [e3, h2], by rw [e4, h2], by rw [e5, h2], ?_⟩
    intro f hf
    obtain ⟨b, b1, b2⟩ := e6 f hf
    refine ⟨_, getFunction_bit l f hf, ?_⟩
    rw [getFunction_bit k f hf, h3] at b1
    cases b1
    rw [b2, lastWrite]
    by_cases he : w.1 = f
    · rw [if_pos he, if_pos (by rw [he])]
    · rw [if_neg he, if_neg (fun e => he (BitVec.eq_of_toNat_eq e).symm)]

/-- C56: from function number 32 on the behaviour is undefined. -/
theorem C56_undefined (l : LocomotiveData) (f : Byte) (v : Bool) (h : 32 ≤ f.toNat) :
    l.setFunction f v = .error .badShift ∧ l.getFunction f = .error .badShift := by
  have : LocomotiveData.functionMask f = .error .badShift := if_neg (by omega)
  simp only [LocomotiveData.setFunction, LocomotiveData.getFunction, this, bind, Except.bind, and_self]

/-- C56: function 31 after three writes. -/
example : ∃ k, writeFunctions {} [(31#8, true), (3#8, true), (3#8, false)] = .ok k ∧ k.getFunction 31#8 = .ok true ∧
    k.getFunction 3#8 = .ok false ∧ k.getFunction 4#8 = .ok false := ⟨_, rfl, rfl, rfl, rfl⟩

/-! ## C57 -/

/-- C57: what a change of direction does. -/
theorem C57_change (l : LocomotiveData) :
    (l.direction = EngineDirection.FORWARD → l.changeDirection.direction = EngineDirection.REVERSE) ∧
    (l.direction = EngineDirection.REVERSE → l.changeDirection.direction = EngineDirection.FORWARD) ∧
    (l.direction ≠ EngineDirection.FORWARD → l.direction ≠ EngineDirection.REVERSE → l.changeDirection = l) ∧
    l.changeDirection.changeDirection = l ∧ l.changeDirection.uid = l.uid ∧ l.changeDirection.velocity = l.velocity ∧
    l.changeDirection.address = l.address ∧ l.changeDirection.functionBits = l.functionBits := by
  have hfr : EngineDirection.REVERSE ≠ EngineDirection.FORWARD := by decide
  by_cases hf : l.direction = EngineDirection.FORWARD
  · have h : l.changeDirection = { l with direction := EngineDirection.REVERSE } := if_pos hf
    refine ⟨fun _ => by rw [h], fun e => absurd (e.symm.trans hf) hfr, fun e => absurd hf e, ?_, by rw [h], by rw [h], by rw [h], by rw [h]⟩
    rw [h]
    simp only [LocomotiveData.changeDirection, if_neg hfr, if_true]
    cases l
    cases hf
    rfl
  · by_cases hr : l.direction = EngineDirection.REVERSE
    · have h : l.changeDirection = { l with direction := EngineDirection.FORWARD } := by
        rw [LocomotiveData.changeDirection, if_neg hf, if_pos hr]
      refine ⟨fun e => absurd e hf, fun _ => by rw [h], fun _ e => absurd hr e, ?_, by rw [h], by rw [h], by rw [h], by rw [h]⟩
      rw [h]
      simp only [LocomotiveData.changeDirection, if_true]
      cases l
      cases hr
      rfl
    · have h : l.changeDirection = l := by rw [LocomotiveData.changeDirection, if_neg hf, if_neg hr]
      exact ⟨fun e => absurd e hf, fun e => absurd e hr, fun _ _ => h, by rw [h, h], by rw [h], by rw [h], by rw [h], by rw [h]⟩

/-- C57: `switchDirection`. -/
theorem C57_switch (d : EngineDirection) (l : LocomotiveData) (hl : l.direction = d) :
    (d = EngineDirection.FORWARD ∨ d = EngineDirection.REVERSE → switchDirection d = l.changeDirection.direction ∧ switchDirection d ≠ d) ∧
    (d ≠ EngineDirection.FORWARD → d ≠ EngineDirection.REVERSE → switchDirection d = EngineDirection.UNKNOWN) := by
  constructor
  · obtain ⟨h1, h2, -⟩ := C57_change l
    rintro (h | h) <;> subst h
    · rw [h1 hl]; decide
    · rw [h2 hl]; decide
  · intro h1 h2
    rw [switchDirection, if_neg h1, if_neg h2]

/-- C57: forward, back, and an engine whose direction is not known. -/
example : ({ direction := EngineDirection.FORWARD } : LocomotiveData).changeDirection.direction = EngineDirection.REVERSE ∧
    ({} : LocomotiveData).changeDirection = {} ∧ switchDirection EngineDirection.UNCHANGED = EngineDirection.UNKNOWN := by decide

end RR32
