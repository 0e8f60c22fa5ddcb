import Verif.Proofs.NestedRun

/-!
# The text parser up to its first call on the consumer

What the text parser does in a packet, split at the first call on its consumer; and that nothing is left to do afterwards if the consumer
has reset the parser.
-/

set_option autoImplicit false

namespace RR32

open Spec

namespace World

variable (P : Program) (k : World → Op → Run World)

/-- An entry as a call on a consumer. -/
def entryCall (c : Nat) (e : Entry) : ConsumerCall := ⟨c, .consume (ofc 11 e.sect) (ofc 11 e.key) (ofc 26 e.value)⟩

/-- The text parser has been reset, whatever consumer has been attached since. -/
def Wiped (n : Nat) (x : World) : Prop := ∃ c, x.text n = conc .start c []

theorem lift_ok_pure {α : Type} (a : α) : (Run.lift (.ok a) : Run α) = pure a := rfl

theorem tell_one (w : World) (c : Nat) (e : Entry) :
    tellEvents P k w (toEvents (some c) [e]) = callConsumerN P k w (entryCall c e) := by
  unfold tellEvents
  show ([entryCall c e].foldlM (callConsumerN P k) w : Run World) = _
  rw [List.foldlM_cons]
  exact bind_pure _

theorem toEvents_length (c : Nat) (es : List Entry) : (toEvents (some c) es).length = es.length := by
  induction es with
  | nil => rfl
  | cons e es ih => rw [show toEvents (some c) (e :: es) = toEvent (some c) e ++ toEvents (some c) es from rfl, List.length_append, ih]; simp [toEvent]; omega

theorem findToken_few {p p' : TextParser} {o : Nat} {chars : List Byte} {d : TextParser.Dest} {evs : List ParseEvent} {r : TextParser.FindTokenResult}
    (h : p.findToken o chars d = .ok (p', evs, r)) : evs.length ≤ 1 := by
  unfold TextParser.findToken at h
  obtain ⟨x, -, h⟩ := bind_ok h
  obtain ⟨y, h1, h⟩ := bind_ok h
  cases h
  unfold TextParser.storeToken at h1
  split at h1
  · cases h1; exact Nat.zero_le _
  · obtain ⟨z, -, h1⟩ := bind_ok h1
    dsimp only at h1
    split at h1
    · obtain ⟨u, h2, h1⟩ := bind_ok h1
      cases h1
      unfold TextParser.reportParseError at h2
      obtain ⟨_, -, h2⟩ := bind_ok h2
      obtain ⟨_, -, h2⟩ := bind_ok h2
      obtain ⟨_, -, h2⟩ := bind_ok h2
      cases h2
      unfold TextParser.emit
      split
      · exact Nat.zero_le _
      · exact Nat.le_refl _
    · cases h1; exact Nat.zero_le _

theorem findToken_null {p : TextParser} {o : Nat} {chars : List Byte} {y : TextParser × List ParseEvent × TextParser.FindTokenResult}
    (h : p.findToken o chars .null = .ok y) : y.2.1 = [] := by
  unfold TextParser.findToken at h
  obtain ⟨x, -, h⟩ := bind_ok h
  obtain ⟨y, h1, h⟩ := bind_ok h
  cases h
  unfold TextParser.storeToken at h1
  cases h1
  rfl

/-- One turn of the loop: either it calls nobody and does what the turn of the plain model does, or it calls the consumer once. What comes
after the call is as in the plain model if the text parser is as it was, and comes to nothing if it has been reset. -/
theorem processStepN_cut (w : World) (n : Nat) (s : Reader) (hs : s.Fits) (c : Nat) (pre rest : List Byte) (hne : rest ≠ [])
    (hw : (pre ++ rest).length ≤ 31) (ht : w.text n = conc s (some c) (pre ++ rest)) :
    ∃ m s' es, 0 < m ∧ m ≤ rest.length ∧ s'.Fits ∧ s.bytes rest = ((s'.bytes (rest.drop m)).1, es ++ (s'.bytes (rest.drop m)).2) ∧
      ((es = [] ∧ processStepN P k w n pre.length = pure (w.setText n (conc s' (some c) (pre ++ rest)), pre.length + m, false)) ∨
       (∃ e s0 K, es = [e] ∧ s0.Fits ∧
          processStepN P k w n pre.length = callConsumerN P k (w.setText n (conc s0 (some c) (pre ++ rest))) (entryCall c e) >>= K ∧
          (∀ x, Wiped n x → ∃ j, K x = pure (x, j, false)) ∧
          (∀ x, x.text n = conc s0 (some c) (pre ++ rest) →
            K x = pure (x.setText n (conc s' (some c) (pre ++ rest)), pre.length + m, false)))) := by
  have wiped : ∀ (x : World) (c' : Option Nat), x.text n = conc .start c' [] → x.setText n (conc .start c' []) = x := by
    intro x c' h; rw [← h]; exact setText_self x n
  have drop_tl : ∀ a c (r : List Byte), (a ++ c :: r).drop (a.length + 1) = r := by intro a c r; simp
  have few : ∀ m s' es, (conc s (some c) (pre ++ rest)).processStep pre.length = .ok (conc s' (some c) (pre ++ rest), toEvents (some c) es, pre.length + m, false) →
      s'.Fits → es.length ≤ 1 →
      processStepN P k w n pre.length = (do
        let (t, evs, consumed, stop) ← Run.lift ((w.text n).processStep pre.length)
        let w ← tellEvents P k (w.setText n t) evs
        pure (w, consumed, stop)) →
      ((es = [] ∧ processStepN P k w n pre.length = pure (w.setText n (conc s' (some c) (pre ++ rest)), pre.length + m, false)) ∨
       (∃ e s0 K, es = [e] ∧ s0.Fits ∧
          processStepN P k w n pre.length = callConsumerN P k (w.setText n (conc s0 (some c) (pre ++ rest))) (entryCall c e) >>= K ∧
          (∀ x, Wiped n x → ∃ j, K x = pure (x, j, false)) ∧
          (∀ x, x.text n = conc s0 (some c) (pre ++ rest) →
            K x = pure (x.setText n (conc s' (some c) (pre ++ rest)), pre.length + m, false)))) := by
    intro m s' es h1 h2 h3 h4
    rw [ht, h1] at h4
    match es, h3 with
    | [], _ => exact Or.inl ⟨rfl, h4⟩
    | [e], _ =>
      refine Or.inr ⟨e, s', fun x => pure (x, pre.length + m, false), rfl, h2, ?_, fun x _ => ⟨_, rfl⟩, ?_⟩
      · rw [h4, ← tell_one]
        rfl
      · intro x hx
        rw [← hx, setText_self]
  match hm : s.mode with
  | .look =>
    obtain ⟨m, s', es, h1, h2, h3, h4, h5⟩ := processStep_conc s hs (some c) pre rest hne hw
    have hst : (w.text n).state = .LOOKING_FOR_KEY_OR_SECTION_START := by rw [ht]; simp [conc, hm, stateOf]
    refine ⟨m, s', es, h2, h3, h4, h5, few m s' es h1 h4 ?_ (by unfold processStepN; rw [hst])⟩
    rw [ht] at hst
    simp only [TextParser.processStep, hst] at h1
    rw [← toEvents_length c]
    obtain ⟨y, h6, h1⟩ := bind_ok h1
    have h7 := findToken_null h6
    split at h1
    · obtain ⟨_, -, h1⟩ := bind_ok h1
      split at h1
      · obtain ⟨_, -, h1⟩ := bind_ok h1
        injection h1 with h1
        rw [← congrArg (fun z => z.2.1) h1 |> (show _ = toEvents (some c) es from ·), h7]
        exact Nat.zero_le _
      · obtain ⟨_, -, h1⟩ := bind_ok h1
        split at h1
        · injection h1 with h1
          rw [← congrArg (fun z => z.2.1) h1 |> (show _ = toEvents (some c) es from ·), h7]
          exact Nat.zero_le _
        · obtain ⟨_, -, h1⟩ := bind_ok h1
          injection h1 with h1
          cases (show true = false from congrArg (fun z => z.2.2.2) h1)
    · injection h1 with h1
      rw [← congrArg (fun z => z.2.1) h1 |> (show _ = toEvents (some c) es from ·), h7]
      exact Nat.zero_le _
  | .sect =>
    obtain ⟨m, s', es, h1, h2, h3, h4, h5⟩ := processStep_conc s hs (some c) pre rest hne hw
    have hst : (w.text n).state = .PARSING_SECTION := by rw [ht]; simp [conc, hm, stateOf]
    refine ⟨m, s', es, h2, h3, h4, h5, few m s' es h1 h4 ?_ (by unfold processStepN; rw [hst])⟩
    rw [ht] at hst
    simp only [TextParser.processStep, hst] at h1
    rw [← toEvents_length c]
    obtain ⟨y, h6, h1⟩ := bind_ok h1
    split at h1 <;> (injection h1 with h1; rw [← congrArg (fun z => z.2.1) h1 |> (show _ = toEvents (some c) es from ·)]; exact findToken_few h6)
  | .error =>
    obtain ⟨m, s', es, h1, h2, h3, h4, h5⟩ := processStep_conc s hs (some c) pre rest hne hw
    have hst : (w.text n).state = .ERROR := by rw [ht]; simp [conc, hm, stateOf]
    refine ⟨m, s', es, h2, h3, h4, h5, few m s' es h1 h4 ?_ (by unfold processStepN; rw [hst])⟩
    rw [ht] at hst
    simp only [TextParser.processStep, hst] at h1
    rw [← toEvents_length c]
    injection h1 with h1
    rw [← congrArg (fun z => z.2.1) h1 |> (show _ = toEvents (some c) es from ·)]
    exact Nat.zero_le _
  | .key =>
    obtain ⟨a, tl, rfl, ha, htl⟩ := split_stop [ch '=', ch '\n'] rest
    have haf : IsKey a := by
      intro b hb
      have := ha b hb
      simpa using this
    obtain ⟨m, hf⟩ := findToken_conc s hs (some c) .key [ch '=', ch '\n'] (by intro c hc; revert c; decide) (by decide) pre a tl hw ha hne htl
    have hst : (w.text n).state = .PARSING_KEY := by rw [ht]; simp [conc, hm, stateOf]
    have hch : ([TextParser.kKeyStop, TextParser.kValueStop, 0#8] : List Byte) = [ch '=', ch '\n'] ++ [0#8] := rfl
    have hby := Reader.bytes_key s hm hs.key a haf
    unfold maxKey at hby
    by_cases hfit : s.key.length + a.length ≤ 11
    · rw [if_pos hfit] at hby
      rw [if_pos (show (destOf s .key).length + a.length ≤ destCap .key from hfit)] at hf
      have hs' : (pushed s a .key).Fits := ⟨hs.sect, by simpa [pushed, maxKey] using hfit, hs.value⟩
      have hF : findTokenN P k w n pre.length [TextParser.kKeyStop, TextParser.kValueStop, 0#8] .key =
          pure (w.setText n (conc (pushed s a .key) (some c) (pre ++ (a ++ tl))), tokenResult (pre.length + a.length) tl) := by
        unfold findTokenN
        rw [ht, hch, hf]
        rfl
      cases tl with
      | nil =>
        refine ⟨a.length, pushed s a .key, [], List.length_pos_iff.mpr (by simpa using hne), by simp, hs', ?_, Or.inl ⟨rfl, ?_⟩⟩
        rotate_left
        · unfold processStepN
          rw [hst]
          dsimp only
          rw [hF, pure_bind]
          rfl
        simp [hby, Reader.bytes, pushed]
      | cons d r =>
        by_cases h1 : d = ch '='
        · refine ⟨a.length + 1, { s with mode := .value, key := s.key ++ a }, [], by omega, by simp,
            ⟨hs.sect, hs'.key, hs.value⟩, ?_, Or.inl ⟨rfl, ?_⟩⟩
          · rw [drop_tl, Reader.bytes_append, hby, Reader.bytes_cons]
            simp [Reader.byte, hm, h1]
          · unfold processStepN
            rw [hst]
            dsimp only
            rw [hF, pure_bind]
            refine (if_pos rfl).trans ((if_pos h1).trans ?_)
            dsimp only
            rw [setText_text, setText_setText]
            rfl
        · have h2 : d = ch '\n' := by
            have h3 := htl d r rfl
            simp only [List.mem_cons, List.not_mem_nil, or_false] at h3
            exact h3.resolve_left h1
          have e1 : (conc (pushed s a .key) (some c) (pre ++ (a ++ d :: r))).value.erase = .ok (ofc 26 []) := ofc.erase hs.value
          have e2 : (conc (pushed s a .key) (some c) (pre ++ (a ++ d :: r))).key.erase = .ok (ofc 11 []) := ofc.erase hs'.key
          have e3 := emit_conc { pushed s a .key with value := [] } (some c) (pre ++ (a ++ d :: r))
          refine ⟨a.length + 1, { s with mode := .look, key := [], value := [] },
            [{ sect := s.sect, key := s.key ++ a, value := [] }], by omega, by simp, ⟨hs.sect, by simp, by simp⟩, ?_, Or.inr ?_⟩
          · rw [drop_tl, Reader.bytes_append, hby, Reader.bytes_cons]
            have h4 : ¬ch '\n' = ch '=' := by decide
            simp [Reader.byte, hm, h2, h4]
          · refine ⟨_, { pushed s a .key with value := [] }, fun w => do
              let key ← Run.lift (w.text n).key.erase
              pure (w.setText n { w.text n with key := key, state := .LOOKING_FOR_KEY_OR_SECTION_START }, pre.length + a.length + 1, false), rfl, ⟨hs'.sect, hs'.key, by simp⟩, ?_, ?_, ?_⟩
            · unfold processStepN
              rw [hst]
              dsimp only
              rw [hF, pure_bind]
              refine (if_pos rfl).trans ((if_neg h1).trans ((if_pos h2).trans ?_))
              dsimp only
              rw [← tell_one, setText_text, e1]
              rw [show (Run.lift (.ok (ofc 26 [])) : Run BufferManager) = pure (ofc 26 []) from rfl, pure_bind]
              rw [setText_setText, setText_text]
              rw [show toEvents (some c) [{ sect := s.sect, key := s.key ++ a, value := [] }] = _ from e3.symm]
              rfl
            · rintro x ⟨c', hx⟩
              refine ⟨pre.length + a.length + 1, ?_⟩
              dsimp only
              rw [hx, show (conc .start c' []).key.erase = .ok (ofc 11 []) from ofc.erase (by simp [Reader.start])]
              rw [lift_ok_pure, pure_bind]
              show (pure (x.setText n (conc .start c' []), pre.length + a.length + 1, false) : Run (World × Nat × Bool)) = _
              rw [wiped x c' hx]
            · intro x hx
              dsimp only
              rw [hx, show (conc { pushed s a .key with value := [] } (some c) (pre ++ (a ++ d :: r))).key.erase = .ok (ofc 11 []) from e2]
              rfl
    · rw [if_neg hfit] at hby
      rw [if_neg (show ¬(destOf s .key).length + a.length ≤ destCap .key from hfit)] at hf
      have h11 := hs.key
      unfold maxKey at h11
      refine ⟨a.length, .failed, [Entry.error], by omega, by simp, Reader.fits_failed, ?_, Or.inr ⟨_, .failed, fun x => pure (x, pre.length + a.length, false), rfl, Reader.fits_failed, ?_, fun x _ => ⟨_, rfl⟩, ?_⟩⟩
      · rw [Reader.bytes_append, hby]
        simp [Reader.bytes_failed]
      · unfold processStepN
        rw [hst]
        dsimp only
        unfold findTokenN
        rw [ht, hch, hf, ← tell_one]
        show ((tellEvents P k _ _ >>= fun w => pure (w, _)) >>= _) = _
        rw [bind_assoc]
        rfl
      · intro x hx
        rw [← hx, setText_self]
  | .value =>
    obtain ⟨a, tl, rfl, ha, htl⟩ := split_stop [ch '\n'] rest
    have haf : IsValue a := by
      intro b hb
      have := ha b hb
      simpa using this
    obtain ⟨m, hf⟩ := findToken_conc s hs (some c) .value [ch '\n'] (by intro c hc; revert c; decide) (by decide) pre a tl hw ha hne htl
    have hst : (w.text n).state = .PARSING_VALUE := by rw [ht]; simp [conc, hm, stateOf]
    have hch : ([TextParser.kValueStop, 0#8] : List Byte) = [ch '\n'] ++ [0#8] := rfl
    have hby := Reader.bytes_value s hm hs.value a haf
    unfold maxValue at hby
    by_cases hfit : s.value.length + a.length ≤ 26
    · rw [if_pos hfit] at hby
      rw [if_pos (show (destOf s .value).length + a.length ≤ destCap .value from hfit)] at hf
      have hs' : (pushed s a .value).Fits := ⟨hs.sect, hs.key, by simpa [pushed, maxValue] using hfit⟩
      have hF : findTokenN P k w n pre.length [TextParser.kValueStop, 0#8] .value =
          pure (w.setText n (conc (pushed s a .value) (some c) (pre ++ (a ++ tl))), tokenResult (pre.length + a.length) tl) := by
        unfold findTokenN
        rw [ht, hch, hf]
        rfl
      cases tl with
      | nil =>
        refine ⟨a.length, pushed s a .value, [], List.length_pos_iff.mpr (by simpa using hne), by simp, hs', ?_, Or.inl ⟨rfl, ?_⟩⟩
        rotate_left
        · unfold processStepN
          rw [hst]
          dsimp only
          rw [hF, pure_bind]
          rfl
        simp [hby, Reader.bytes, pushed]
      | cons d r =>
        have hd : d = ch '\n' := by simpa using htl d r rfl
        have e1 : (conc (pushed s a .value) (some c) (pre ++ (a ++ d :: r))).value.erase = .ok (ofc 26 []) := ofc.erase hs'.value
        have e2 : (conc (pushed s a .value) (some c) (pre ++ (a ++ d :: r))).key.erase = .ok (ofc 11 []) := ofc.erase hs.key
        have e3 := emit_conc (pushed s a .value) (some c) (pre ++ (a ++ d :: r))
        refine ⟨a.length + 1, { s with mode := .look, key := [], value := [] },
          [{ sect := s.sect, key := s.key, value := s.value ++ a }], by omega, by simp, ⟨hs.sect, by simp, by simp⟩, ?_, Or.inr ?_⟩
        · rw [drop_tl, Reader.bytes_append, hby, Reader.bytes_cons]
          simp [Reader.byte, hm, hd]
        · refine ⟨_, pushed s a .value, fun w => do
            let key ← Run.lift (w.text n).key.erase
            let w := w.setText n { w.text n with key := key }
            let value ← Run.lift (w.text n).value.erase
            pure (w.setText n { w.text n with value := value, state := .LOOKING_FOR_KEY_OR_SECTION_START }, pre.length + a.length + 1, false), rfl, hs', ?_, ?_, ?_⟩
          · unfold processStepN
            rw [hst]
            dsimp only
            rw [hF, pure_bind]
            refine (if_pos rfl).trans ?_
            dsimp only
            rw [← tell_one, setText_text]
            rw [show toEvents (some c) [{ sect := s.sect, key := s.key, value := s.value ++ a }] = _ from e3.symm]
            rfl
          · rintro x ⟨c', hx⟩
            refine ⟨pre.length + a.length + 1, ?_⟩
            dsimp only
            rw [hx, show (conc .start c' []).key.erase = .ok (ofc 11 []) from ofc.erase (by simp [Reader.start])]
            show (Run.lift ((x.setText n (conc .start c' [])).text n).value.erase >>= fun value =>
              pure ((x.setText n (conc .start c' [])).setText n { (x.setText n (conc .start c' [])).text n with value := value, state := .LOOKING_FOR_KEY_OR_SECTION_START }, _, false)) = _
            rw [wiped x c' hx, hx, show (conc .start c' []).value.erase = .ok (ofc 26 []) from ofc.erase (by simp [Reader.start])]
            rw [lift_ok_pure, pure_bind]
            show (pure (x.setText n (conc .start c' []), pre.length + a.length + 1, false) : Run (World × Nat × Bool)) = _
            rw [wiped x c' hx]
          · intro x hx
            dsimp only
            rw [hx, e2]
            show (Run.lift ((x.setText n (conc { pushed s a .value with key := [] } (some c) (pre ++ (a ++ d :: r)))).text n).value.erase >>= fun value =>
              pure ((x.setText n (conc { pushed s a .value with key := [] } (some c) (pre ++ (a ++ d :: r)))).setText n { (x.setText n (conc { pushed s a .value with key := [] } (some c) (pre ++ (a ++ d :: r)))).text n with value := value, state := .LOOKING_FOR_KEY_OR_SECTION_START }, _, false)) = _
            rw [setText_text, show (conc { pushed s a .value with key := [] } (some c) (pre ++ (a ++ d :: r))).value.erase = .ok (ofc 26 []) from e1]
            rw [show (Run.lift (.ok (ofc 26 [])) : Run BufferManager) = pure (ofc 26 []) from rfl, pure_bind, setText_setText]
            rfl
    · rw [if_neg hfit] at hby
      rw [if_neg (show ¬(destOf s .value).length + a.length ≤ destCap .value from hfit)] at hf
      have h11 := hs.value
      unfold maxValue at h11
      refine ⟨a.length, .failed, [Entry.error], by omega, by simp, Reader.fits_failed, ?_, Or.inr ⟨_, .failed, fun x => pure (x, pre.length + a.length, false), rfl, Reader.fits_failed, ?_, fun x _ => ⟨_, rfl⟩, ?_⟩⟩
      · rw [Reader.bytes_append, hby]
        simp [Reader.bytes_failed]
      · unfold processStepN
        rw [hst]
        dsimp only
        unfold findTokenN
        rw [ht, hch, hf, ← tell_one]
        show ((tellEvents P k _ _ >>= fun w => pure (w, _)) >>= _) = _
        rw [bind_assoc]
        rfl
      · intro x hx
        rw [← hx, setText_self]

/-- The loop, split at the first call. -/
theorem processLoopN_cut (fuel : Nat) (w : World) (n : Nat) (s : Reader) (hs : s.Fits) (c : Nat) (pre rest : List Byte)
    (hw : (pre ++ rest).length ≤ 31) (hfuel : rest.length < fuel) (ht : w.text n = conc s (some c) (pre ++ rest)) :
    ((s.bytes rest).2 = [] →
      processLoopN P k fuel w n pre.length = pure (w.setText n (conc (s.bytes rest).1 (some c) (pre ++ rest)), (pre ++ rest).length)) ∧
    (∀ e es, (s.bytes rest).2 = e :: es → ∃ s0 K, s0.Fits ∧
      processLoopN P k fuel w n pre.length = callConsumerN P k (w.setText n (conc s0 (some c) (pre ++ rest))) (entryCall c e) >>= K ∧
      ∀ x, Wiped n x → ∃ j, K x = pure (x, j)) := by
  induction fuel generalizing w s pre rest with
  | zero => omega
  | succ fuel ih =>
    have hlen : (w.text n).buffer.len = (pre ++ rest).length := by rw [ht]; rfl
    rw [processLoopN, hlen]
    by_cases hne : rest = []
    · subst hne
      rw [if_neg (by simp)]
      refine ⟨fun _ => ?_, fun e es h => by cases h⟩
      show pure (w, _) = pure (w.setText n (conc s (some c) (pre ++ [])), _)
      rw [← ht, setText_self, List.append_nil]
    · have hp := List.length_pos_iff.mpr hne
      rw [if_pos (by simp; omega)]
      obtain ⟨m, s', es, h2, h3, h4, h5, h6⟩ := processStepN_cut P k w n s hs c pre rest hne hw ht
      have e : pre ++ rest = (pre ++ rest.take m) ++ rest.drop m := by simp
      have el : (pre ++ rest.take m).length = pre.length + m := by simp; omega
      have hi := fun u ht' => ih u s' h4 (pre ++ rest.take m) (rest.drop m) (by rw [← e]; exact hw) (by simp; omega) ht'
      simp only [← e, el] at hi
      rcases h6 with ⟨rfl, h6⟩ | ⟨e', s0, K, rfl, h7, h6, h8, -⟩
      · rw [h6]
        show (_ → processLoopN P k fuel (w.setText n _) n (pre.length + m) = _) ∧ _
        obtain ⟨i1, i2⟩ := hi _ (setText_text w n _)
        rw [h5]
        simp only [setText_setText] at i1 i2
        exact ⟨i1, i2⟩
      · rw [h5, h6]
        refine ⟨fun h => (by cases h), ?_⟩
        intro e1 es1 h
        injection h with h _
        subst h
        refine ⟨s0, _, h7, bind_assoc _ _ _, ?_⟩
        intro x hx
        obtain ⟨j, h9⟩ := h8 x hx
        dsimp only
        rw [h9]
        obtain ⟨fuel, rfl⟩ : ∃ f, fuel = f + 1 := ⟨fuel - 1, by omega⟩
        refine ⟨j, ?_⟩
        show processLoopN P k (fuel + 1) x n j = _
        rw [processLoopN]
        obtain ⟨c', hx⟩ := hx
        rw [hx, if_neg (show ¬j < (conc .start c' []).buffer.len from Nat.not_lt_zero _)]

/-- `addText`, split at the first call, between packets. -/
theorem addTextN_cut (w : World) (n : Nat) (s : Reader) (hs : s.Fits) (c : Nat) (input : BufferManager) (hi : BufOk input)
    (ht : w.text n = conc s (some c) []) :
    ((s.chunk (content input)).2 = [] → addTextN P k w n input = pure (w.setText n (conc (s.chunk (content input)).1 (some c) []))) ∧
    (∀ e es, (s.chunk (content input)).2 = e :: es → ∃ s0 b K, s0.Fits ∧ b.length ≤ 31 ∧
      addTextN P k w n input = callConsumerN P k (w.setText n (conc s0 (some c) b)) (entryCall c e) >>= K ∧
      ∀ x, Wiped n x → K x = pure x) := by
  have hl : (content input).length = input.len := by
    rw [content, List.length_take]; have := hi.len_le; have := hi.mem_le; omega
  have hst : (w.text n).state = .ERROR ↔ s.mode = .error := by
    rw [ht]; simp only [conc]; cases s.mode <;> simp [stateOf]
  unfold addTextN Reader.chunk
  by_cases hc : (content input).length > maxChunk ∨ s.mode = .error
  · rw [if_pos hc, if_pos (by simp only [hl, maxChunk] at hc; simpa [TextParser.kBufferLength, hst] using hc)]
    refine ⟨fun h => (by cases h), ?_⟩
    intro e es h
    injection h with h _
    subst h
    refine ⟨.failed, [], fun x => pure x, Reader.fits_failed, Nat.zero_le _, ?_, fun _ _ => rfl⟩
    rw [bind_pure, ← tell_one]
    unfold reportParseErrorN
    rw [ht, report_conc s hs (some c) []]
    rfl
  · rw [if_neg hc, if_neg (by simp only [hl, maxChunk] at hc; simpa [TextParser.kBufferLength, hst] using hc)]
    simp only [hl, maxChunk, not_or] at hc
    unfold TextParser.loopFuel
    rw [addLoopN]
    by_cases h0 : input.len = 0
    · have hn : content input = [] := List.length_eq_zero_iff.mp (by omega)
      rw [if_neg (by omega), hn]
      refine ⟨fun _ => ?_, fun e es h => by cases h⟩
      show pure w = pure (w.setText n (conc s (some c) []))
      rw [← ht, setText_self]
    · rw [if_pos (by omega)]
      have hfull : ((w.text n).buffer.full || decide ((w.text n).state = .ERROR)) = false := by
        rw [Bool.or_eq_false_iff]
        refine ⟨(by rw [ht]; exact (show (ofc 31 []).full = false by decide)), ?_⟩
        rw [decide_eq_false_iff_not, hst]
        exact hc.2
      rw [hfull]
      simp only [Bool.false_eq_true, if_false]
      have hview := C28_from input hi 0
      have hvok := (C28_view input hi 0 input.len).2.2.1
      have hpush := ofc.push_back (cap := 31) (c := []) (by simp) (by omega) (input.subBufferManagerFrom 0)
        (Nat.le_trans hvok.len_le hvok.mem_le)
      rw [hview, List.drop_zero, List.nil_append, List.length_nil, Nat.sub_zero, hl, Nat.min_eq_right (by omega),
        List.take_of_length_le (by omega)] at hpush
      rw [ht, show (conc s (some c) []).buffer = ofc 31 [] from rfl, hpush]
      have hu : u8 (0 + input.len) = input.len := by simp only [u8]; omega
      have last : ∀ (b : World), addLoopN P k 299 b n input (u8 (0 + input.len)) = pure b := by
        intro b
        rw [hu, addLoopN, if_neg (by omega)]
      obtain ⟨i1, i2⟩ := processLoopN_cut P k TextParser.loopFuel (w.setText n (conc s (some c) (content input))) n s hs c [] (content input)
        (by simp; omega) (by unfold TextParser.loopFuel; omega) (setText_text _ _ _)
      refine ⟨fun h => ?_, fun e es h => ?_⟩
      · show (processLoopN P k TextParser.loopFuel (w.setText n (conc s (some c) (content input))) n 0 >>= _) = _
        rw [show processLoopN P k TextParser.loopFuel (w.setText n (conc s (some c) (content input))) n 0 = _ from i1 h]
        rw [setText_setText, pure_bind]
        have hpop := ofc.pop_front (cap := 31) (c := content input) (by omega) (by omega) (content input).length
        rw [List.drop_length] at hpop
        rw [setText_text, List.nil_append, show (conc (s.bytes (content input)).1 (some c) (content input)).buffer = ofc 31 (content input) from rfl, hpop]
        show addLoopN P k 299 _ n input (u8 (0 + input.len)) = _
        rw [last, setText_setText]
        rfl
      · obtain ⟨s0, K, k1, k2, k3⟩ := i2 e es h
        refine ⟨s0, content input, fun x => K x >>= fun y => do
            let buffer ← Run.lift ((y.1.text n).buffer.pop_front y.2)
            addLoopN P k 299 (y.1.setText n { y.1.text n with buffer := buffer }) n input (u8 (0 + input.len)), k1, by omega, ?_, ?_⟩
        · show (processLoopN P k TextParser.loopFuel (w.setText n (conc s (some c) (content input))) n 0 >>= _) = _
          rw [show processLoopN P k TextParser.loopFuel (w.setText n (conc s (some c) (content input))) n 0 = _ from k2, setText_setText, bind_assoc]
          rfl
        · intro x hx
          obtain ⟨j, h9⟩ := k3 x hx
          obtain ⟨c', hx⟩ := hx
          dsimp only
          rw [h9, pure_bind]
          have hpop := ofc.pop_front (cap := 31) (c := []) (by simp) (by omega) j
          rw [hx, show (conc .start c' []).buffer = ofc 31 [] from rfl, hpop]
          show addLoopN P k 299 _ n input (u8 (0 + input.len)) = _
          rw [last]
          rw [List.drop_nil]
          show pure (x.setText n (conc .start c' [])) = _
          rw [← hx, setText_self]

end World

end RR32
