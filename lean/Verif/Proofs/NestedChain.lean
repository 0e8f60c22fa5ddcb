import Verif.Proofs.NestedCut

/-!
# The entries of a packet, one call on the consumer after the other
-/

set_option autoImplicit false

namespace RR32

open Spec

namespace World

variable (P : Program) (k : World → Op → Run World)

theorem callConsumerN_app (w : World) (c : ConsumerCall) (h : w.consumers c.consumer = .app) :
    callConsumerN P k w c = react P k (w.logAll [.consumer c]) (.consumer c) := by
  unfold callConsumerN
  have e1 : w.callConsumer c = .ok (w.logAll [.consumer c]) := by
    unfold callConsumer
    simp only [logAll] at h ⊢
    rw [h]
  rw [e1, lift_ok_pure, pure_bind]
  have e2 : ((w.logAll [.consumer c]).log.drop w.log.length).filter w.reachesApp = [.consumer c] := by
    show ((w.log ++ [LogEntry.consumer c]).drop w.log.length).filter w.reachesApp = _
    rw [List.drop_left' rfl, List.filter_cons_of_pos (by simp [reachesApp, h]), List.filter_nil]
  rw [e2, List.foldlM_cons]
  exact bind_pure _

/-- The consumer `c` of parser `n` has been given the entries in order, one after the other, starting in the first world and ending in the
second. The state of the parser's text parser at each call is left open. -/
inductive Given (n c : Nat) : World → List Entry → World → Prop
  | nil (w : World) : Given n c w [] w
  | cons (w x v : World) (t : TextParser) (e : Entry) (es : List Entry)
      (h1 : (callConsumerN P k (w.setText n t) (entryCall c e)).Returns x) (h2 : Given n c x es v) : Given n c w (e :: es) v

theorem given_setText {n c : Nat} {w v : World} {es : List Entry} {t : TextParser} (h : Given P k n c (w.setText n t) es v) :
    ∃ u, Given P k n c w es u ∧ ∀ t', u.setText n t' = v.setText n t' := by
  cases h with
  | nil => exact ⟨w, .nil w, fun t' => (setText_setText ..).symm⟩
  | cons _ x _ t' e es h1 h2 =>
    rw [setText_setText] at h1
    exact ⟨v, .cons _ _ _ _ _ _ h1 h2, fun _ => rfl⟩

theorem given_append {n c : Nat} {w u v : World} {es1 es2 : List Entry} (h1 : Given P k n c w es1 u) (h2 : Given P k n c u es2 v) :
    Given P k n c w (es1 ++ es2) v := by
  induction h1 with
  | nil => exact h2
  | cons w x v t e es h _ ih => exact .cons _ _ _ _ _ _ h (ih h2)

/-- Consumers that leave the parser alone: the loop gives the entries in order. -/
theorem processLoopN_given {J : World → Prop} (n c : Nat) (hJ : ∀ w t, J w → J (w.setText n t))
    (hC : ∀ w v e, J w → (callConsumerN P k w (entryCall c e)).Returns v → J v ∧ v.text n = w.text n)
    (fuel : Nat) (w : World) (s : Reader) (hs : s.Fits) (pre rest : List Byte)
    (hw : (pre ++ rest).length ≤ 31) (hfuel : rest.length < fuel) (ht : w.text n = conc s (some c) (pre ++ rest)) (hj : J w)
    (r : World × Nat) (hr : (processLoopN P k fuel w n pre.length).Returns r) :
    ∃ u, Given P k n c w (s.bytes rest).2 u ∧ J r.1 ∧ r = (u.setText n (conc (s.bytes rest).1 (some c) (pre ++ rest)), (pre ++ rest).length) := by
  induction fuel generalizing w s pre rest with
  | zero => omega
  | succ fuel ih =>
    have hlen : (w.text n).buffer.len = (pre ++ rest).length := by rw [ht]; rfl
    rw [processLoopN, hlen] at hr
    by_cases hne : rest = []
    · subst hne
      rw [if_neg (by simp)] at hr
      rw [← returns_pure.mp hr]
      refine ⟨w, .nil w, hj, ?_⟩
      show (w, _) = (w.setText n (conc s (some c) (pre ++ [])), _)
      rw [← ht, setText_self, List.append_nil]
    · have hp := List.length_pos_iff.mpr hne
      rw [if_pos (by simp; omega)] at hr
      obtain ⟨m, s', es, h2, h3, h4, h5, h6⟩ := processStepN_cut P k w n s hs c pre rest hne hw ht
      have e : pre ++ rest = (pre ++ rest.take m) ++ rest.drop m := by simp
      have el : (pre ++ rest.take m).length = pre.length + m := by simp; omega
      have hi := fun u ht' hj' hr' => ih u s' h4 (pre ++ rest.take m) (rest.drop m) (by rw [← e]; exact hw) (by simp; omega) ht' hj' hr'
      simp only [← e, el] at hi
      rcases h6 with ⟨rfl, h6⟩ | ⟨e', s0, K, rfl, h7, h6, -, h8⟩
      · rw [h6] at hr
        obtain ⟨u, i1, i2, i3⟩ := hi _ (setText_text w n _) (hJ _ _ hj) hr
        obtain ⟨u', j1, j2⟩ := given_setText P k i1
        rw [h5]
        exact ⟨u', j1, i2, by rw [i3, j2]⟩
      · rw [h6, bind_assoc] at hr
        obtain ⟨x, hx, hr⟩ := returns_bind.mp hr
        obtain ⟨a1, a2⟩ := hC _ _ _ (hJ _ _ hj) hx
        rw [setText_text] at a2
        dsimp only at hr
        rw [h8 x a2] at hr
        obtain ⟨u, i1, i2, i3⟩ := hi _ (setText_text x n _) (hJ _ _ a1) hr
        obtain ⟨u', j1, j2⟩ := given_setText P k i1
        rw [h5]
        exact ⟨u', .cons _ _ _ _ _ _ hx j1, i2, by rw [i3, j2]⟩

/-- The same for `addText`, between packets. -/
theorem addTextN_given {J : World → Prop} (n c : Nat) (hJ : ∀ w t, J w → J (w.setText n t))
    (hC : ∀ w v e, J w → (callConsumerN P k w (entryCall c e)).Returns v → J v ∧ v.text n = w.text n)
    (w : World) (s : Reader) (hs : s.Fits) (input : BufferManager) (hi : BufOk input) (ht : w.text n = conc s (some c) []) (hj : J w)
    (r : World) (hr : (addTextN P k w n input).Returns r) :
    ∃ u, Given P k n c w (s.chunk (content input)).2 u ∧ J r ∧ r = u.setText n (conc (s.chunk (content input)).1 (some c) []) := by
  have hl : (content input).length = input.len := by
    rw [content, List.length_take]; have := hi.len_le; have := hi.mem_le; omega
  have hst : (w.text n).state = .ERROR ↔ s.mode = .error := by
    rw [ht]; simp only [conc]; cases s.mode <;> simp [stateOf]
  unfold addTextN at hr
  unfold Reader.chunk
  by_cases hc : (content input).length > maxChunk ∨ s.mode = .error
  · rw [if_pos hc]
    rw [if_pos (by simp only [hl, maxChunk] at hc; simpa [TextParser.kBufferLength, hst] using hc)] at hr
    unfold reportParseErrorN at hr
    rw [ht, report_conc s hs (some c) []] at hr
    have hr' : (tellEvents P k (w.setText n (conc .failed (some c) [])) (toEvents (some c) [Entry.error])).Returns r := hr
    rw [tell_one] at hr'
    obtain ⟨a1, a2⟩ := hC _ _ _ (hJ _ _ hj) hr'
    refine ⟨r, .cons _ _ _ _ _ _ hr' (.nil _), a1, ?_⟩
    rw [setText_text] at a2
    show r = r.setText n (conc .failed (some c) [])
    rw [← a2, setText_self]
  · rw [if_neg hc]
    rw [if_neg (by simp only [hl, maxChunk] at hc; simpa [TextParser.kBufferLength, hst] using hc)] at hr
    simp only [hl, maxChunk, not_or] at hc
    unfold TextParser.loopFuel at hr
    rw [addLoopN] at hr
    by_cases h0 : input.len = 0
    · have hn : content input = [] := List.length_eq_zero_iff.mp (by omega)
      rw [if_neg (by omega)] at hr
      rw [hn, ← returns_pure.mp hr]
      refine ⟨w, .nil _, hj, ?_⟩
      show w = w.setText n (conc s (some c) [])
      rw [← ht, setText_self]
    · rw [if_pos (by omega)] at hr
      have hfull : ((w.text n).buffer.full || decide ((w.text n).state = .ERROR)) = false := by
        rw [Bool.or_eq_false_iff]
        refine ⟨(by rw [ht]; exact (show (ofc 31 []).full = false by decide)), ?_⟩
        rw [decide_eq_false_iff_not, hst]
        exact hc.2
      rw [hfull] at hr
      simp only [Bool.false_eq_true, if_false] at hr
      have hview := C28_from input hi 0
      have hvok := (C28_view input hi 0 input.len).2.2.1
      have hpush := ofc.push_back (cap := 31) (c := []) (by simp) (by omega) (input.subBufferManagerFrom 0)
        (Nat.le_trans hvok.len_le hvok.mem_le)
      rw [hview, List.drop_zero, List.nil_append, List.length_nil, Nat.sub_zero, hl, Nat.min_eq_right (by omega),
        List.take_of_length_le (by omega)] at hpush
      rw [ht, show (conc s (some c) []).buffer = ofc 31 [] from rfl, hpush] at hr
      have hu : u8 (0 + input.len) = input.len := by simp only [u8]; omega
      have last : ∀ (b : World), addLoopN P k 299 b n input (u8 (0 + input.len)) = pure b := by
        intro b
        rw [hu, addLoopN, if_neg (by omega)]
      have hr' : (processLoopN P k TextParser.loopFuel (w.setText n (conc s (some c) (content input))) n 0 >>= fun y => do
            let buffer ← Run.lift ((y.1.text n).buffer.pop_front y.2)
            addLoopN P k 299 (y.1.setText n { y.1.text n with buffer := buffer }) n input (u8 (0 + input.len))).Returns r := hr
      obtain ⟨y, hy, hr'⟩ := returns_bind.mp hr'
      obtain ⟨u, i1, i2, rfl⟩ := processLoopN_given P k n c hJ hC TextParser.loopFuel (w.setText n (conc s (some c) (content input))) s hs [] (content input)
        (by simp; omega) (by unfold TextParser.loopFuel; omega) (setText_text _ _ _) (hJ _ _ hj) y hy
      obtain ⟨u', j1, j2⟩ := given_setText P k i1
      have hpop := ofc.pop_front (cap := 31) (c := content input) (by omega) (by omega) (content input).length
      rw [List.drop_length] at hpop
      dsimp only at hr'
      rw [setText_text, List.nil_append, show (conc (s.bytes (content input)).1 (some c) (content input)).buffer = ofc 31 (content input) from rfl, hpop] at hr'
      have hr'' : (addLoopN P k 299 ((u.setText n (conc (s.bytes (content input)).1 (some c) (content input))).setText n (conc (s.bytes (content input)).1 (some c) [])) n input (u8 (0 + input.len))).Returns r := hr'
      rw [last, setText_setText] at hr''
      have e := returns_pure.mp hr''
      refine ⟨u', j1, ?_, by rw [← e, j2]⟩
      rw [← e]
      have := hJ _ (conc (s.bytes (content input)).1 (some c) []) i2
      dsimp only at this
      rwa [setText_setText] at this

/-- Consumers that do nothing: after any number of entries of the packet the loop is where it would be if it had started behind them. -/
theorem processLoopN_skip (n c : Nat) (w0 : World) (es1 es2 : List Entry) (hc : w0.consumers c = .app)
    (hP : ∀ a e b u, es1 = a ++ e :: b → u.log = w0.log ++ (a ++ [e]).map (fun e => .consumer (entryCall c e)) → P u (.consumer (entryCall c e)) = [])
    (fuel : Nat) (done todo : List Entry) (hdt : done ++ todo = es1) (t : TextParser) (s : Reader) (hs : s.Fits) (pre rest : List Byte)
    (hw : (pre ++ rest).length ≤ 31) (hfuel : rest.length < fuel) (ht : t = conc s (some c) (pre ++ rest)) (hes : (s.bytes rest).2 = todo ++ es2) :
    ∃ s1 m f, s1.Fits ∧ (rest.drop m).length < f ∧ m ≤ rest.length ∧ s1.bytes (rest.drop m) = ((s.bytes rest).1, es2) ∧
      processLoopN P k fuel ((w0.logAll (done.map (fun e => .consumer (entryCall c e)))).setText n t) n pre.length =
        processLoopN P k f ((w0.logAll (es1.map (fun e => .consumer (entryCall c e)))).setText n (conc s1 (some c) (pre ++ rest))) n (pre.length + m) := by
  induction fuel generalizing done todo t s pre rest with
  | zero => omega
  | succ fuel ih =>
    cases todo with
    | nil =>
      rw [List.append_nil] at hdt
      subst hdt ht
      exact ⟨s, 0, fuel + 1, hs, hfuel, Nat.zero_le _, by rw [List.drop_zero]; exact Prod.ext rfl hes, rfl⟩
    | cons e todo =>
      have hne : rest ≠ [] := by rintro rfl; cases hes
      have hp := List.length_pos_iff.mpr hne
      subst ht
      generalize hw1 : (w0.logAll (done.map (fun e => LogEntry.consumer (entryCall c e)))).setText n (conc s (some c) (pre ++ rest)) = w1
      have ht1 : w1.text n = conc s (some c) (pre ++ rest) := by rw [← hw1, setText_text]
      have hlen : (w1.text n).buffer.len = (pre ++ rest).length := by rw [ht1]; rfl
      rw [processLoopN, hlen, if_pos (by simp; omega)]
      obtain ⟨m, s', es, h2, h3, h4, h5, h6⟩ := processStepN_cut P k w1 n s hs c pre rest hne hw ht1
      have ee : pre ++ rest = (pre ++ rest.take m) ++ rest.drop m := by simp
      have el : (pre ++ rest.take m).length = pre.length + m := by simp; omega
      have hi := fun d td hd hes' => ih d td hd _ s' h4 (pre ++ rest.take m) (rest.drop m) (by rw [← ee]; exact hw) (by simp; omega) rfl hes'
      simp only [← ee, el, List.drop_drop] at hi
      rw [h5] at hes ⊢
      rcases h6 with ⟨rfl, h6⟩ | ⟨e', s0, K, rfl, h7, h6, -, h8⟩
      · rw [h6, pure_bind, ← hw1, setText_setText]
        obtain ⟨s1, m', f, i1, i2, i3, i4, i5⟩ := hi done (e :: todo) hdt hes
        refine ⟨s1, m + m', f, i1, i2, by rw [List.length_drop] at i3; omega, i4, ?_⟩
        rw [← Nat.add_assoc]
        exact i5
      · injection hes with he1 he2
        subst he1
        obtain ⟨s1, m', f, i1, i2, i3, i4, i5⟩ := hi (done ++ [e']) todo (by rw [← hdt]; simp) he2
        refine ⟨s1, m + m', f, i1, i2, by rw [List.length_drop] at i3; omega, i4, ?_⟩
        rw [← Nat.add_assoc, ← i5, h6, bind_assoc]
        have ha : (w1.setText n (conc s0 (some c) (pre ++ rest))).consumers (entryCall c e').consumer = .app := by rw [← hw1]; exact hc
        rw [callConsumerN_app P k _ _ ha]
        unfold react
        rw [hP done e' todo _ hdt.symm (by rw [← hw1]; show (w0.log ++ _) ++ [_] = _; rw [List.map_append, List.append_assoc]; rfl)]
        rw [List.foldlM_nil, pure_bind]
        rw [h8 _ (by show (w1.setText n (conc s0 (some c) (pre ++ rest))).text n = _; exact setText_text _ _ _), pure_bind]
        have : (((w1.setText n (conc s0 (some c) (pre ++ rest))).logAll [LogEntry.consumer (entryCall c e')]).setText n (conc s' (some c) (pre ++ rest))) =
            (w0.logAll ((done ++ [e']).map (fun e => LogEntry.consumer (entryCall c e)))).setText n (conc s' (some c) (pre ++ rest)) := by
          rw [← hw1, setText_setText]
          have e1 : ∀ (w : World) a l, (w.setText n a).logAll l = (w.logAll l).setText n a := fun _ _ _ => rfl
          have e2 : (w0.logAll (done.map (fun e => LogEntry.consumer (entryCall c e)))).logAll [LogEntry.consumer (entryCall c e')] =
              w0.logAll ((done ++ [e']).map (fun e => LogEntry.consumer (entryCall c e))) := by
            unfold logAll
            rw [List.map_append, ← List.append_assoc]
            rfl
          rw [e1, setText_setText, e2]
        dsimp only
        rw [this]
        rfl

/-- `addText` between packets, up to an entry, if the consumer has done nothing about the entries before. -/
theorem addTextN_skip (n c : Nat) (w : World) (es1 : List Entry) (e : Entry) (es2 : List Entry) (hc : w.consumers c = .app)
    (hP : ∀ a e b u, es1 = a ++ e :: b → u.log = w.log ++ (a ++ [e]).map (fun e => .consumer (entryCall c e)) → P u (.consumer (entryCall c e)) = [])
    (s : Reader) (hs : s.Fits) (input : BufferManager) (hi : BufOk input)
    (ht : w.text n = conc s (some c) []) (hes : (s.chunk (content input)).2 = es1 ++ e :: es2) :
    ∃ s0 b K, s0.Fits ∧ b.length ≤ 31 ∧
      addTextN P k w n input = callConsumerN P k ((w.logAll (es1.map (fun e => .consumer (entryCall c e)))).setText n (conc s0 (some c) b)) (entryCall c e) >>= K ∧
      ∀ x, Wiped n x → K x = pure x := by
  cases es1 with
  | nil =>
    have : w.logAll (([] : List Entry).map (fun e => LogEntry.consumer (entryCall c e))) = w := by
      show { w with log := w.log ++ [] } = w
      rw [List.append_nil]
    rw [this]
    exact (addTextN_cut P k w n s hs c input hi ht).2 e es2 hes
  | cons e1 es1 =>
  have hl : (content input).length = input.len := by
    rw [content, List.length_take]; have := hi.len_le; have := hi.mem_le; omega
  have hst : (w.text n).state = .ERROR ↔ s.mode = .error := by
    rw [ht]; simp only [conc]; cases s.mode <;> simp [stateOf]
  unfold addTextN
  unfold Reader.chunk at hes
  by_cases hc1 : (content input).length > maxChunk ∨ s.mode = .error
  · rw [if_pos hc1] at hes
    have := congrArg List.length hes
    simp at this
  · rw [if_neg hc1] at hes
    rw [if_neg (by simp only [hl, maxChunk] at hc1; simpa [TextParser.kBufferLength, hst] using hc1)]
    simp only [hl, maxChunk, not_or] at hc1
    unfold TextParser.loopFuel
    rw [addLoopN]
    by_cases h0 : input.len = 0
    · have hn : content input = [] := List.length_eq_zero_iff.mp (by omega)
      rw [hn] at hes
      cases hes
    · rw [if_pos (by omega)]
      have hfull : ((w.text n).buffer.full || decide ((w.text n).state = .ERROR)) = false := by
        rw [Bool.or_eq_false_iff]
        refine ⟨(by rw [ht]; exact (show (ofc 31 []).full = false by decide)), ?_⟩
        rw [decide_eq_false_iff_not, hst]
        exact hc1.2
      rw [hfull]
      simp only [Bool.false_eq_true, if_false]
      have hview := C28_from input hi 0
      have hvok := (C28_view input hi 0 input.len).2.2.1
      have hpush := ofc.push_back (cap := 31) (c := []) (by simp) (by omega) (input.subBufferManagerFrom 0)
        (Nat.le_trans hvok.len_le hvok.mem_le)
      rw [hview, List.drop_zero, List.nil_append, List.length_nil, Nat.sub_zero, hl, Nat.min_eq_right (by omega),
        List.take_of_length_le (by omega)] at hpush
      rw [ht, show (conc s (some c) []).buffer = ofc 31 [] from rfl, hpush]
      have hu : u8 (0 + input.len) = input.len := by simp only [u8]; omega
      have last : ∀ (b : World), addLoopN P k 299 b n input (u8 (0 + input.len)) = pure b := by
        intro b
        rw [hu, addLoopN, if_neg (by omega)]
      obtain ⟨s1, m, f, i1, i2, i3, i4, i5⟩ := processLoopN_skip P k n c w (e1 :: es1) (e :: es2) hc hP TextParser.loopFuel [] (e1 :: es1) rfl _ s hs [] (content input)
        (by simp; omega) (by unfold TextParser.loopFuel; omega) rfl hes
      have ee : content input = ((content input).take m) ++ (content input).drop m := by simp
      have el : ((content input).take m).length = m := by simp; omega
      generalize hw2 : (w.logAll ((e1 :: es1).map (fun e => LogEntry.consumer (entryCall c e)))) = w2 at i5 ⊢
      have hcut := (processLoopN_cut P k f (w2.setText n (conc s1 (some c) (content input))) n s1 i1 c
        ((content input).take m) ((content input).drop m) (by rw [← ee]; omega) i2 (by rw [← ee]; exact setText_text _ _ _)).2 e es2 (by rw [i4])
      rw [← ee, el] at hcut
      obtain ⟨s0, K, k1, k2, k3⟩ := hcut
      have j5 : processLoopN P k TextParser.loopFuel (w.setText n (conc s (some c) (content input))) n 0 =
          processLoopN P k f (w2.setText n (conc s1 (some c) (content input))) n m := by
        have h6 := i5
        rw [List.nil_append, List.length_nil, Nat.zero_add] at h6
        rw [← h6]
        have : w.logAll (([] : List Entry).map (fun e => LogEntry.consumer (entryCall c e))) = w := by
          show { w with log := w.log ++ [] } = w
          rw [List.append_nil]
        rw [this]
      refine ⟨s0, content input, fun x => K x >>= fun y => do
          let buffer ← Run.lift ((y.1.text n).buffer.pop_front y.2)
          addLoopN P k 299 (y.1.setText n { y.1.text n with buffer := buffer }) n input (u8 (0 + input.len)), k1, by omega, ?_, ?_⟩
      · show (processLoopN P k TextParser.loopFuel (w.setText n (conc s (some c) (content input))) n 0 >>= _) = _
        rw [j5, k2, setText_setText, bind_assoc]
      · intro x hx
        obtain ⟨j, h9⟩ := k3 x hx
        obtain ⟨c', hx⟩ := hx
        dsimp only
        rw [h9, pure_bind]
        have hpop := ofc.pop_front (cap := 31) (c := []) (by simp) (by omega) j
        rw [hx, show (conc .start c' []).buffer = ofc 31 [] from rfl, hpop]
        show addLoopN P k 299 _ n input (u8 (0 + input.len)) = _
        rw [last]
        rw [List.drop_nil]
        show pure (x.setText n (conc .start c' [])) = _
        rw [← hx, setText_self]

end World

end RR32
