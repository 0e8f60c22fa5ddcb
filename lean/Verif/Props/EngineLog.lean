import Verif.Proofs.Console
import Verif.Props.Console

/-! # C71 and C72: what the log says about engines and the engine list -/

set_option autoImplicit false

namespace RR32

open Spec (readHex readDec hexAfter decAfter)

namespace Spec

/-- The text in a memory object: the bytes before the first NUL. -/
def textIn (m : List Byte) : List Byte := m.takeWhile fun c => c != 0#8

/-- What a slot shows: nothing, or a name. -/
def slot (s : ShortInfo) : Option (List Byte) := if s.availability = .EMPTY then none else some (textIn s.name)

end Spec

open Spec (textIn slot)

/-! ## Helpers -/

theorem cstr_textIn (m s : List Byte) (h : cstr m = .ok s) : s = textIn m ∧ s.length < m.length := by
  rcases cstring_cases m with hn | ⟨a, r, rfl, ha⟩
  · rw [cstr_noNul m hn] at h; cases h
  · rw [cstr_eq a r ha] at h
    cases h
    refine ⟨?_, by simp⟩
    unfold textIn
    rw [List.takeWhile_append_of_pos (fun c hc => by simpa using ha c hc)]
    simp

/-- Two texts that are cut at the first occurrence of a character. -/
theorem split_first (c : Byte) (a b x y : List Byte) (ha : c ∉ a) (hb : c ∉ b) (h : a ++ c :: x = b ++ c :: y) : a = b ∧ x = y := by
  induction a generalizing b with
  | nil =>
    match b with
    | [] => simpa using h
    | d :: b => simp at h hb; exact absurd h.1 hb.1
  | cons d a ih =>
    match b with
    | [] => simp at h ha; exact absurd h.1.symm ha.1
    | e :: b =>
      simp at h ha hb
      obtain ⟨h1, h2⟩ := ih b ha.2 hb.2 h.2
      exact ⟨by rw [h.1, h1], h2⟩

/-- The numbers of an engine, without the end of the line. -/
def engineBody (l : LocomotiveData) : List Byte :=
  str "UID: " ++ (hexSpaces 10 l.uid.toNat ++ (str " " ++ (str "Addr: " ++ (intText l.address.addr ++ (str " " ++ (str "V: " ++
    (decText l.velocity.toNat ++ (str " " ++ (str "Dir: " ++ (decText (l.direction.truncate 8 : Byte).toNat ++ (str ", " ++
      (str "F: " ++ hexZeros false 4 l.functionBits.toNat))))))))))))

theorem engine_pieces (l : LocomotiveData) : l.printText = engineBody l ++ [10#8] := by
  have h1 : str " Addr: " = str " " ++ str "Addr: " := by decide
  have h2 : str " V: " = str " " ++ str "V: " := by decide
  have h3 : str " Dir: " = str " " ++ str "Dir: " := by decide
  have h4 : str ", F: " = str ", " ++ str "F: " := by decide
  have h5 : str "\n" = [10#8] := by decide
  unfold LocomotiveData.printText engineBody
  rw [h1, h2, h3, h4, h5]
  simp only [List.append_assoc]

theorem hexSpaces_chars (w n : Nat) : ∀ c ∈ hexSpaces w n, c ≠ 10#8 ∧ c ≠ 39#8 := by
  intro c hc
  unfold hexSpaces at hc
  simp only [List.mem_append, List.mem_replicate] at hc
  rcases hc with hc | hc
  · rw [hc.2]; decide
  · have := numberChar_word c (hexZeros_chars false 0 n c hc)
    exact ⟨this.2.2.1, this.2.2.2.1⟩

theorem engineBody_chars (l : LocomotiveData) : ∀ c ∈ engineBody l, c ≠ 10#8 ∧ c ≠ 39#8 := by
  have num : ∀ x : List Byte, (∀ c ∈ x, numberChar c = true) → ∀ c ∈ x, c ≠ 10#8 ∧ c ≠ 39#8 := by
    intro x hx c hc
    have := numberChar_word c (hx c hc)
    exact ⟨this.2.2.1, this.2.2.2.1⟩
  intro c hc
  unfold engineBody at hc
  simp only [List.mem_append] at hc
  rcases hc with h | h | h | h | h | h | h | h | h | h | h | h | h | h
  · revert c; decide
  · exact hexSpaces_chars _ _ c h
  · revert c; decide
  · revert c; decide
  · exact num _ (intText_chars _) c h
  · revert c; decide
  · revert c; decide
  · exact num _ (fun c hc => (decText_chars _ c hc).1) c h
  · revert c; decide
  · revert c; decide
  · exact num _ (fun c hc => (decText_chars _ c hc).1) c h
  · revert c; decide
  · revert c; decide
  · exact num _ (hexZeros_chars _ _ _) c h

/-! ## C71 -/

/-- C71: the numbers of an engine are read back from its log line. -/
theorem C71_numbers (l : LocomotiveData) :
    hexAfter "UID: " l.printText = some l.uid.toNat ∧
    decAfter "Addr: " l.printText = some l.address.addr.toInt ∧
    decAfter "V: " l.printText = some (l.velocity.toNat : Int) ∧
    decAfter "Dir: " l.printText = some ((l.direction.toNat % 256 : Nat) : Int) ∧
    hexAfter "F: " l.printText = some l.functionBits.toNat := by
  have hu := hexSpaces_lower 10 l.uid.toNat
  have ha := intText_lower l.address.addr
  have hv := decText_lower l.velocity.toNat
  have hd := decText_lower (l.direction.truncate 8 : Byte).toNat
  have hdir : (l.direction.truncate 8 : Byte).toNat = l.direction.toNat % 256 := by simp
  rw [engine_pieces, engineBody]
  simp only [List.append_assoc]
  refine ⟨?_, ?_, ?_, ?_, ?_⟩
  · have := hexAfter_spaces "UID: " [] 10 l.uid.toNat _ (by decide) rfl (stops_str " " (str "Addr: " ++ (intText l.address.addr ++ (str " " ++ (str "V: " ++
    (decText l.velocity.toNat ++ (str " " ++ (str "Dir: " ++ (decText (l.direction.truncate 8 : Byte).toNat ++ (str ", " ++
      (str "F: " ++ (hexZeros false 4 l.functionBits.toNat ++ [10#8]))))))))))) 32#8 [] (by decide) (by decide))
    simpa only [List.nil_append] using this
  · have := decAfter_int "Addr: " (str "UID: " ++ (hexSpaces 10 l.uid.toNat ++ str " ")) l.address.addr _ (by decide)
      (misses_append _ _ _ (by decide) (misses_append _ _ _ (misses_upper _ 65#8 _ (by decide) (by decide) hu) (by decide)))
      (stops_str " " (str "V: " ++
    (decText l.velocity.toNat ++ (str " " ++ (str "Dir: " ++ (decText (l.direction.truncate 8 : Byte).toNat ++ (str ", " ++
      (str "F: " ++ (hexZeros false 4 l.functionBits.toNat ++ [10#8])))))))) 32#8 [] (by decide) (by decide))
    simpa only [List.append_assoc] using this
  · have := decAfter_dec "V: " (str "UID: " ++ (hexSpaces 10 l.uid.toNat ++ (str " " ++ (str "Addr: " ++ (intText l.address.addr ++ str " ")))))
      l.velocity.toNat _ (by decide)
      (misses_append _ _ _ (by decide) (misses_append _ _ _ (misses_upper _ 86#8 _ (by decide) (by decide) hu)
        (misses_append _ _ _ (by decide) (misses_append _ _ _ (by decide) (misses_append _ _ _
          (misses_upper _ 86#8 _ (by decide) (by decide) ha) (by decide))))))
      (stops_str " " (str "Dir: " ++ (decText (l.direction.truncate 8 : Byte).toNat ++ (str ", " ++
      (str "F: " ++ (hexZeros false 4 l.functionBits.toNat ++ [10#8]))))) 32#8 [] (by decide) (by decide))
    simpa only [List.append_assoc] using this
  · rw [← hdir]
    have := decAfter_dec "Dir: " (str "UID: " ++ (hexSpaces 10 l.uid.toNat ++ (str " " ++ (str "Addr: " ++ (intText l.address.addr ++
        (str " " ++ (str "V: " ++ (decText l.velocity.toNat ++ str " "))))))))
      (l.direction.truncate 8 : Byte).toNat _ (by decide)
      (misses_append _ _ _ (by decide) (misses_append _ _ _ (misses_upper _ 68#8 _ (by decide) (by decide) hu)
        (misses_append _ _ _ (by decide) (misses_append _ _ _ (by decide) (misses_append _ _ _
          (misses_upper _ 68#8 _ (by decide) (by decide) ha) (misses_append _ _ _ (by decide) (misses_append _ _ _ (by decide)
            (misses_append _ _ _ (misses_upper _ 68#8 _ (by decide) (by decide) hv) (by decide)))))))))
      (stops_str ", " (str "F: " ++ (hexZeros false 4 l.functionBits.toNat ++ [10#8])) 44#8 [32#8] (by decide) (by decide))
    simpa only [List.append_assoc] using this
  · have := hexAfter_zeros "F: " (str "UID: " ++ (hexSpaces 10 l.uid.toNat ++ (str " " ++ (str "Addr: " ++ (intText l.address.addr ++
        (str " " ++ (str "V: " ++ (decText l.velocity.toNat ++ (str " " ++ (str "Dir: " ++
          (decText (l.direction.truncate 8 : Byte).toNat ++ str ", "))))))))))) false 4 l.functionBits.toNat [10#8] (by decide)
      (misses_append _ _ _ (by decide) (misses_append _ _ _ (misses_upper _ 70#8 _ (by decide) (by decide) hu)
        (misses_append _ _ _ (by decide) (misses_append _ _ _ (by decide) (misses_append _ _ _
          (misses_upper _ 70#8 _ (by decide) (by decide) ha) (misses_append _ _ _ (by decide) (misses_append _ _ _ (by decide)
            (misses_append _ _ _ (misses_upper _ 70#8 _ (by decide) (by decide) hv) (misses_append _ _ _ (by decide)
              (misses_append _ _ _ (by decide) (misses_append _ _ _ (misses_upper _ 70#8 _ (by decide) (by decide) hd)
                (by decide))))))))))))
      (.inr ⟨10#8, [], rfl, by decide⟩)
    simpa only [List.append_assoc] using this

/-- What follows the name of an engine in the log. -/
def engineTail (l : LocomotiveData) (p : List Byte) : List Byte := engineBody l ++ (10#8 :: (str " Proto: " ++ (p ++ [10#8])))

/-- The log text of an engine by its availability. -/
theorem engineText_cases (l : Locomotive) (t : List Byte) (h : l.printText = .ok t) :
    (l.info.availability = .EMPTY ∧ t = str "  EngineShortInfo: " ++ str "Empty.\n") ∨
    (l.info.availability = .NAME_KNOWN ∧ t = str "  EngineShortInfo: " ++ (39#8 :: (textIn l.info.name ++ [39#8]))) ∨
    (l.info.availability = .FULL_DETAILS ∧
      t = str "  EngineShortInfo: " ++ (39#8 :: (textIn l.info.name ++ (39#8 :: engineTail l.data (textIn l.protocol)))) ∧
      (textIn l.protocol).length < l.protocol.length) := by
  have hq : str "'" = [39#8] := by decide
  have hn : str "\n" = [10#8] := by decide
  unfold Locomotive.printText ShortInfo.printText at h
  cases ha : l.info.availability with
  | EMPTY =>
    rw [ha] at h
    left
    refine ⟨rfl, ?_⟩
    simpa [bind, Except.bind] using (Except.ok.inj h).symm
  | NAME_KNOWN =>
    rw [ha] at h
    right; left
    refine ⟨rfl, ?_⟩
    obtain ⟨x, hx, hy⟩ := bind_ok h
    rw [if_neg (by decide)] at hx hy
    obtain ⟨n, hn', hx⟩ := bind_ok hx
    obtain ⟨rfl, _⟩ := cstr_textIn _ _ hn'
    rw [← Except.ok.inj hy, ← Except.ok.inj hx, hq]
    simp only [List.append_assoc, List.cons_append, List.nil_append]
  | FULL_DETAILS =>
    rw [ha] at h
    right; right
    obtain ⟨x, hx, hy⟩ := bind_ok h
    rw [if_neg (by decide)] at hx
    rw [if_pos rfl] at hy
    obtain ⟨n, hn', hx⟩ := bind_ok hx
    obtain ⟨rfl, _⟩ := cstr_textIn _ _ hn'
    obtain ⟨p, hp, hy⟩ := bind_ok hy
    obtain ⟨rfl, hlen⟩ := cstr_textIn _ _ hp
    refine ⟨rfl, ?_, hlen⟩
    rw [← Except.ok.inj hy, ← Except.ok.inj hx, hq, hn, engine_pieces, engineTail]
    simp only [List.append_assoc, List.cons_append, List.nil_append]

theorem engineTail_long (l : LocomotiveData) (p : List Byte) : 9 ≤ (engineTail l p).length := by
  have h : (str " Proto: ").length = 8 := by decide
  simp [engineTail, h]; omega

/-- A name cannot reach into what follows it. -/
theorem name_not_longer (l m : LocomotiveData) (p q k : List Byte) (hp : p.length ≤ 7) :
    engineTail l p ≠ k ++ 39#8 :: engineTail m q := by
  intro h
  have hq : ∀ c ∈ engineBody l ++ (10#8 :: str " Proto: "), c ≠ 39#8 := by
    intro c hc
    rcases List.mem_append.mp hc with hc | hc
    · exact (engineBody_chars l c hc).2
    · clear h
      have key : ∀ c ∈ (10#8 :: str " Proto: " : List Byte), c ≠ 39#8 := by decide
      exact key c hc
  have hs : engineTail l p = (engineBody l ++ (10#8 :: str " Proto: ")) ++ (p ++ [10#8]) := by
    simp [engineTail]
  have hlong := engineTail_long m q
  rw [hs] at h
  generalize engineBody l ++ (10#8 :: str " Proto: ") = Q at h hq
  generalize engineTail m q = S at h hlong
  rcases List.append_eq_append_iff.mp h with ⟨z, hz, hr⟩ | ⟨z, hz, hr⟩
  · have := congrArg List.length hr
    simp at this; omega
  · cases z with
    | nil =>
      have := congrArg List.length hr
      simp at this; omega
    | cons c z =>
      have hc : c = 39#8 := by simpa using (List.cons.inj hr).1.symm
      exact hq c (by rw [hz]; simp) hc

/-- C71: two engines whose log texts are equal agree in everything the text is about: whether a name and the details are known,
the name, and if the details are known uid, address, velocity, direction, functions and protocol. The direction is an enumerator
(below 256) and the protocol field has 8 bytes. -/
theorem C71_determines (a b : Locomotive) (t : List Byte) (ha : a.printText = .ok t) (hb : b.printText = .ok t)
    (hpa : a.protocol.length = 8) (hpb : b.protocol.length = 8) (hda : a.data.direction.toNat < 256)
    (hdb : b.data.direction.toNat < 256) :
    a.info.availability = b.info.availability ∧ slot a.info = slot b.info ∧
    (a.info.availability = .FULL_DETAILS → a.data = b.data ∧ textIn a.protocol = textIn b.protocol) := by
  have hE : str "Empty.\n" = 69#8 :: str "mpty.\n" := by decide
  have nameEnd : ∀ n : List Byte, ∀ l p m, (39#8 :: (n ++ [39#8] : List Byte)) ≠ 39#8 :: (m ++ (39#8 :: engineTail l p)) := by
    intro n l p m h
    have h := congrArg List.getLast? h
    simp [engineTail, List.getLast?_append, List.getLast?_cons] at h
  rcases engineText_cases a t ha with ⟨ea, ta⟩ | ⟨ea, ta⟩ | ⟨ea, ta, la⟩ <;>
    rcases engineText_cases b t hb with ⟨eb, tb⟩ | ⟨eb, tb⟩ | ⟨eb, tb, lb⟩
  · exact ⟨by rw [ea, eb], by simp [slot, ea, eb], fun h => by rw [ea] at h; cases h⟩
  · rw [ta] at tb; have := List.append_cancel_left tb; rw [hE] at this; exact absurd (List.cons.inj this).1 (by decide)
  · rw [ta] at tb; have := List.append_cancel_left tb; rw [hE] at this; exact absurd (List.cons.inj this).1 (by decide)
  · rw [ta] at tb; have := List.append_cancel_left tb; rw [hE] at this; exact absurd (List.cons.inj this).1 (by decide)
  · rw [ta] at tb
    have := (List.cons.inj (List.append_cancel_left tb)).2
    have := List.append_cancel_right this
    exact ⟨by rw [ea, eb], by simp [slot, ea, eb, this], fun h => by rw [ea] at h; cases h⟩
  · rw [ta] at tb; exact absurd (List.append_cancel_left tb) (nameEnd _ _ _ _)
  · rw [ta] at tb; have := List.append_cancel_left tb; rw [hE] at this; exact absurd (List.cons.inj this).1 (by decide)
  · rw [ta] at tb; exact absurd (List.append_cancel_left tb).symm (nameEnd _ _ _ _)
  · rw [ta] at tb
    have h := (List.cons.inj (List.append_cancel_left tb)).2
    have hn : textIn a.info.name = textIn b.info.name ∧
        engineTail a.data (textIn a.protocol) = engineTail b.data (textIn b.protocol) := by
      rcases List.append_eq_append_iff.mp h with ⟨z, hz, hr⟩ | ⟨z, hz, hr⟩
      · cases z with
        | nil => exact ⟨by rw [hz]; simp, by simpa using hr⟩
        | cons c z =>
          obtain ⟨hc, hr⟩ := List.cons.inj hr
          exact absurd hr (name_not_longer _ _ _ _ _ (by omega))
      · cases z with
        | nil => exact ⟨by rw [hz]; simp, by simpa using hr.symm⟩
        | cons c z =>
          obtain ⟨hc, hr⟩ := List.cons.inj hr
          exact absurd hr (name_not_longer _ _ _ _ _ (by omega))
    obtain ⟨hn, ht⟩ := hn
    unfold engineTail at ht
    obtain ⟨hbody, hrest⟩ := split_first 10#8 _ _ _ _ (fun h => (engineBody_chars _ _ h).1 rfl)
      (fun h => (engineBody_chars _ _ h).1 rfl) ht
    have hproto := List.append_cancel_right (List.append_cancel_left hrest)
    have hprint : a.data.printText = b.data.printText := by rw [engine_pieces, engine_pieces, hbody]
    obtain ⟨u1, a1, v1, d1, f1⟩ := C71_numbers a.data
    obtain ⟨u2, a2, v2, d2, f2⟩ := C71_numbers b.data
    rw [hprint] at u1 a1 v1 d1 f1
    have eu := Option.some.inj (u1.symm.trans u2)
    have ead := Option.some.inj (a1.symm.trans a2)
    have ev := Option.some.inj (v1.symm.trans v2)
    have ed := Option.some.inj (d1.symm.trans d2)
    have ef := Option.some.inj (f1.symm.trans f2)
    refine ⟨by rw [ea, eb], by simp [slot, ea, eb, hn], fun _ => ⟨?_, hproto⟩⟩
    cases hA : a.data with
    | mk au av ad aa af =>
      cases hB : b.data with
      | mk bu bv bd ba bf =>
        rw [hA, hB] at eu ead ev ed ef
        rw [hA] at hda
        rw [hB] at hdb
        simp only at eu ead ev ed ef hda hdb
        have e1 : au = bu := BitVec.eq_of_toNat_eq eu
        have e2 : av = bv := BitVec.eq_of_toNat_eq (by omega)
        have e3 : ad = bd := BitVec.eq_of_toNat_eq (by omega)
        have e4 : af = bf := BitVec.eq_of_toNat_eq ef
        have e5 : aa = ba := by
          cases aa; cases ba
          simp only at ead
          rw [BitVec.eq_of_toInt_eq ead]
        rw [e1, e2, e3, e4, e5]

/-- C71 is not vacuous: an engine as downloaded. -/
def loggedEngine : Locomotive :=
  { info := { availability := .FULL_DETAILS, name := lit "BR 86" },
    data := { uid := 0x4005#32, address := ⟨5#32⟩, velocity := 250#16, direction := EngineDirection.FORWARD, functionBits := 3#32 },
    protocol := [ch 'm', ch 'f', ch 'x', 0#8, 0#8, 0#8, 0#8, 0#8] }

example : loggedEngine.printText =
    .ok (str "  EngineShortInfo: 'BR 86'UID:     0x4005 Addr: 5 V: 250 Dir: 1, F: 0x03\n Proto: mfx\n") := by
  unfold Locomotive.printText LocomotiveData.printText intText
  rw [if_pos (by decide)]
  simp only [decText_eq]
  decide +kernel

/-! ## C72 -/

/-- No apostrophe in the name that a slot shows. -/
def Unquoted (s : ShortInfo) : Prop := 39#8 ∉ textIn s.name

theorem shortText_cases (s : ShortInfo) (t : List Byte) (h : s.printText = .ok t) :
    (slot s = none ∧ t = str "  EngineShortInfo: " ++ (69#8 :: str "mpty.\n")) ∨
    (slot s = some (textIn s.name) ∧ t = str "  EngineShortInfo: " ++ (39#8 :: (textIn s.name ++ [39#8]))) := by
  have hq : str "'" = [39#8] := by decide
  have hE : str "Empty.\n" = 69#8 :: str "mpty.\n" := by decide
  unfold ShortInfo.printText at h
  split at h
  · next ha => exact .inl ⟨by simp [slot, ha], by rw [← Except.ok.inj h, hE]⟩
  · next ha =>
    obtain ⟨n, hn, h⟩ := bind_ok h
    obtain ⟨rfl, _⟩ := cstr_textIn _ _ hn
    refine .inr ⟨by simp [slot, ha], ?_⟩
    rw [← Except.ok.inj h, hq]
    simp only [List.append_assoc, List.cons_append, List.nil_append]

/-- One slot in front of the rest of the log. -/
theorem shortText_inj (a b : ShortInfo) (s t x y : List Byte) (ha : a.printText = .ok s) (hb : b.printText = .ok t)
    (qa : Unquoted a) (qb : Unquoted b) (h : s ++ x = t ++ y) : slot a = slot b ∧ x = y := by
  rcases shortText_cases a s ha with ⟨ea, rfl⟩ | ⟨ea, rfl⟩ <;> rcases shortText_cases b t hb with ⟨eb, rfl⟩ | ⟨eb, rfl⟩ <;>
    rw [List.append_assoc, List.append_assoc] at h <;> have h := List.append_cancel_left h
  · refine ⟨by rw [ea, eb], List.append_cancel_left h⟩
  · exact absurd (List.cons.inj h).1 (by decide)
  · exact absurd (List.cons.inj h).1 (by decide)
  · rw [List.cons_append, List.cons_append, List.append_assoc, List.append_assoc] at h
    have h := (List.cons.inj h).2
    obtain ⟨hn, hx⟩ := split_first 39#8 _ _ _ _ qa qb h
    exact ⟨by rw [ea, eb, hn], hx⟩

theorem shortTexts_inj (as bs : List ShortInfo) (s t : List (List Byte)) (hl : as.length = bs.length)
    (ha : as.mapM ShortInfo.printText = .ok s) (hb : bs.mapM ShortInfo.printText = .ok t) (qa : ∀ a ∈ as, Unquoted a)
    (qb : ∀ b ∈ bs, Unquoted b) (h : s.flatten = t.flatten) : as.map slot = bs.map slot := by
  induction as generalizing bs s t with
  | nil =>
    match bs, hl with
    | [], _ => rfl
  | cons a as ih =>
    match bs, hl with
    | b :: bs, hl =>
      rw [List.mapM_cons] at ha hb
      obtain ⟨sa, hsa, ha⟩ := bind_ok ha
      obtain ⟨ss, hss, ha⟩ := bind_ok ha
      obtain ⟨tb, htb, hb⟩ := bind_ok hb
      obtain ⟨ts, hts, hb⟩ := bind_ok hb
      cases ha
      cases hb
      simp only [List.flatten_cons] at h
      obtain ⟨h1, h2⟩ := shortText_inj a b sa tb _ _ hsa htb (qa a (by simp)) (qb b (by simp)) h
      rw [List.map_cons, List.map_cons, h1,
        ih bs ss ts (by simpa using hl) hss hts (fun a h => qa a (by simp [h])) (fun b h => qb b (by simp [h])) h2]

/-- C72, as far as it is true: if two engine lists are printed alike and no name has an apostrophe, they have the same number of
engines at the master and the same slots. What is missing: with apostrophes the claim is false, see `C72_ambiguous`. -/
theorem C72_determines_partial (a b : LocoListConsumer) (t : List Byte) (ha : a.printAll = .ok t) (hb : b.printAll = .ok t)
    (hl : a.engineInfo.length = b.engineInfo.length) (qa : ∀ e ∈ a.engineInfo, Unquoted e) (qb : ∀ e ∈ b.engineInfo, Unquoted e) :
    a.numEnginesKnownByMaster = b.numEnginesKnownByMaster ∧ a.engineInfo.map slot = b.engineInfo.map slot := by
  have hs : str " total engines.\n" = 32#8 :: str "total engines.\n" := by decide
  unfold LocoListConsumer.printAll at ha hb
  cases hna : a.numEnginesKnownByMaster with
  | none => rw [hna] at ha; cases ha
  | some n =>
    cases hnb : b.numEnginesKnownByMaster with
    | none => rw [hnb] at hb; cases hb
    | some m =>
      rw [hna] at ha
      rw [hnb] at hb
      obtain ⟨x, hx, ha⟩ := bind_ok ha
      obtain ⟨y, hy, hb⟩ := bind_ok hb
      have h := (Except.ok.inj ha).trans (Except.ok.inj hb).symm
      rw [hs] at h
      simp only [List.append_assoc, List.cons_append] at h
      have h := List.append_cancel_left h
      obtain ⟨h1, h2⟩ := split_first 32#8 _ _ _ _ (fun h => (numberChar_word _ (decText_chars _ _ h).1).1 rfl)
        (fun h => (numberChar_word _ (decText_chars _ _ h).1).1 rfl) h
      have hn : n.toNat = m.toNat := by
        have e1 := readDigits_decText n.toNat
        rw [h1, readDigits_decText m.toNat] at e1
        exact (Option.some.inj e1).symm
      exact ⟨by rw [BitVec.eq_of_toNat_eq hn],
        shortTexts_inj _ _ x y hl hx hy qa qb (List.append_cancel_left h2)⟩

/-- C72: the engine list cannot be printed before it was reset once, since the number of engines has no value. -/
theorem C72_uninitialised : LocoListConsumer.construct.printAll = .error .uninitRead := by rfl

/-- A list with two names. -/
def twoNames (x y : List Byte) : LocoListConsumer :=
  { LocoListConsumer.construct.reset with
    engineInfo := [{ availability := .NAME_KNOWN, name := x ++ [0#8] }, { availability := .NAME_KNOWN, name := y ++ [0#8] }] }

/-- C72 is false: names with apostrophes, of at most 23 characters, can be told apart no more. -/
theorem C72_ambiguous :
    (twoNames (str "A'  EngineShortInfo: 'B") (str "C")).printAll = (twoNames (str "A") (str "B'  EngineShortInfo: 'C")).printAll ∧
    (twoNames (str "A'  EngineShortInfo: 'B") (str "C")).printAll.isOk = true ∧
    (twoNames (str "A'  EngineShortInfo: 'B") (str "C")).engineInfo.map slot ≠
      (twoNames (str "A") (str "B'  EngineShortInfo: 'C")).engineInfo.map slot := by
  unfold LocoListConsumer.printAll
  simp only [decText_eq]
  decide +kernel

/-- C72 is not vacuous: a list without apostrophes. -/
example : (twoNames (str "BR 86") (str "V 200")).printAll =
    .ok (str "EngineBrowser: 0 total engines.\n  EngineShortInfo: 'BR 86'  EngineShortInfo: 'V 200'") ∧
    ∀ e ∈ (twoNames (str "BR 86") (str "V 200")).engineInfo, Unquoted e := by
  unfold LocoListConsumer.printAll Unquoted
  simp only [decText_eq]
  decide +kernel

end RR32
