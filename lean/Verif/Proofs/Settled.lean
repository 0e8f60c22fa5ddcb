import Verif.Proofs.NestedStable

/-!
# Text that waits in a parser

Between packets the input buffer of a text parser is empty, also if callbacks call anything at all.
-/

set_option autoImplicit false

namespace RR32

open Spec

namespace World

/-- All text parsers are ones that the library's own calls lead to, and those outside `B` have nothing in their input buffer. -/
structure Settled (B : Nat → Prop) (w : World) : Prop where
  texts : ∀ m, TextGood (fun _ => True) (w.parsers m).text
  empty : ∀ m, ¬B m → (w.parsers m).text.buffer.len = 0

variable {B : Nat → Prop}

theorem settled_of {w v : World} (h : Settled B w) (hv : v.parsers = w.parsers) : Settled B v := ⟨by rw [hv]; exact h.texts, by rw [hv]; exact h.empty⟩

theorem settled_setParser {w : World} (h : Settled B w) (n : Nat) (p : StreamParser) (h1 : TextGood (fun _ => True) p.text)
    (h2 : ¬B n → p.text.buffer.len = 0) : Settled B (w.setParser n p) := by
  refine ⟨fun m => ?_, fun m => ?_⟩ <;> simp only [setParser] <;> split
  · exact h1
  · exact h.texts m
  · next e => rw [e]; exact h2
  · exact h.empty m

/-- A change of a parser that leaves its text parser alone. -/
theorem settled_around {w : World} (h : Settled B w) (n : Nat) (p : StreamParser) (hp : p.text = (w.parsers n).text) : Settled B (w.setParser n p) :=
  settled_setParser h n p (by rw [hp]; exact h.texts n) (by rw [hp]; exact h.empty n)

theorem settled_setText {w : World} (h : Settled B w) (n : Nat) (t : TextParser) (h1 : TextGood (fun _ => True) t)
    (h2 : ¬B n → t.buffer.len = 0) : Settled B (w.setText n t) := settled_setParser h n _ h1 h2

/-- While text of parser `n` is parsed. -/
def With (B : Nat → Prop) (n : Nat) : Nat → Prop := fun m => B m ∨ m = n

theorem settled_with {w : World} (h : Settled B w) (n : Nat) : Settled (With B n) w := ⟨h.texts, fun m hm => h.empty m (fun hb => hm (Or.inl hb))⟩

theorem settled_without {w : World} {n : Nat} (h : Settled (With B n) w) (h0 : (w.parsers n).text.buffer.len = 0) : Settled B w := by
  refine ⟨h.texts, fun m hm => ?_⟩
  by_cases e : m = n
  · rw [e]; exact h0
  · exact h.empty m (by rintro (hb | hb); exacts [hm hb, e hb])

theorem textGood_any {s : Reader} {cons : Option Nat} {b : List Byte} (hs : s.Fits) (hb : b.length ≤ 31) : TextGood (fun _ => True) (conc s cons b) :=
  ⟨s, cons, b, hs, hb, rfl, fun _ _ => trivial⟩

theorem lift_is {α : Type} {r : Res α} (x : α) (h : r = .ok x) : (Run.lift r).Keeps (fun y => y = x) := by
  rw [h]; exact rfl

section
variable {P : Program} {k : World → Op → Run World} (hR : ∀ w e, Settled B w → (react P k w e).Keeps (Settled B))
include hR

theorem callConsumerN_settled (w : World) (c : ConsumerCall) (h : Settled B w) : (callConsumerN P k w c).Keeps (Settled B) :=
  sat_bind (keeps_lift (Q := Settled B) (fun v hv => settled_of h (callConsumer_quiet w v c hv).2))
    (fun _ hv => sat_foldlM _ _ _ _ (fun e _ u hu => hR u e hu) hv)

theorem tellConsumers_settled (w : World) (cs : List ConsumerCall) (h : Settled B w) : (tellConsumers P k w cs).Keeps (Settled B) :=
  sat_foldlM _ _ _ _ (fun c _ u hu => callConsumerN_settled hR u c hu) h

theorem tellEvents_settled (w : World) (evs : List ParseEvent) (h : Settled B w) : (tellEvents P k w evs).Keeps (Settled B) :=
  sat_foldlM _ _ _ _ (fun c _ u hu => callConsumerN_settled hR u c hu) h

theorem reportParseErrorN_settled (w : World) (n : Nat) (h : Settled B w) : (reportParseErrorN P k w n).Keeps (Settled B) := by
  obtain ⟨s, cons, b, hs, hb, ht, hc⟩ := h.texts n
  unfold reportParseErrorN
  rw [show w.text n = conc s cons b from ht, report_conc s hs cons b]
  refine sat_bind (Q := fun x => x = (conc .failed cons b, toEvents cons [Entry.error])) rfl ?_
  rintro _ rfl
  refine tellEvents_settled hR _ _ (settled_setText h n _ (textGood_any Reader.fits_failed hb) (fun hn => ?_))
  have := h.empty n hn
  rw [ht] at this
  exact this

section
variable {n : Nat} (hn : B n)
include hn

theorem findTokenN_settled (w : World) (offset : Nat) (chars : List Byte) (hc : NoNul chars) (hl : chars.length < 256) (d : TextParser.Dest)
    (h : Settled B w) (ho : offset < (w.text n).buffer.len) : (findTokenN P k w n offset (chars ++ [0#8]) d).Keeps (fun x => Settled B x.1) := by
  obtain ⟨s, cons, b, hs, hb, ht, -⟩ := h.texts n
  have ht : w.text n = conc s cons b := ht
  rw [ht] at ho
  have ho : offset < b.length := ho
  unfold findTokenN
  obtain ⟨a, tl, hat, ha, hst⟩ := split_stop chars (b.drop offset)
  have hbe : b = b.take offset ++ (a ++ tl) := by rw [← hat, List.take_append_drop]
  have hpl : (b.take offset).length = offset := by rw [List.length_take]; omega
  have hne : a ++ tl ≠ [] := by
    rw [← hat]; intro e; have := congrArg List.length e; rw [List.length_drop] at this; simp at this; omega
  obtain ⟨m, hf⟩ := findToken_conc s hs cons d chars hc hl (b.take offset) a tl (by rw [← hbe]; exact hb) ha hne hst
  rw [← hbe, hpl] at hf
  rw [ht, hf]
  by_cases hfit : (destOf s d).length + a.length ≤ destCap d
  · rw [if_pos hfit]
    refine sat_bind (Q := fun x => x = (conc (pushed s a d) cons b, [], tokenResult (offset + a.length) tl)) rfl ?_
    rintro _ rfl
    exact sat_bind (tellEvents_settled hR _ _ (settled_setText h n _ (textGood_any (pushed_fits hs d a hfit) hb) (fun h => absurd hn h)))
      (fun v hv => sat_pure hv)
  · rw [if_neg hfit]
    refine sat_bind (Q := fun x => x = (conc .failed cons b, toEvents cons [Entry.error],
      ({ consumed := offset + a.length, success := false, matchingChar := m } : TextParser.FindTokenResult))) rfl ?_
    rintro _ rfl
    exact sat_bind (tellEvents_settled hR _ _ (settled_setText h n _ (textGood_any Reader.fits_failed hb) (fun h => absurd hn h)))
      (fun v hv => sat_pure hv)

/-- One turn of the loop does not leave it. -/
theorem processStepN_settled (w : World) (i : Nat) (h : Settled B w) (hi : i < (w.text n).buffer.len) :
    (processStepN P k w n i).Keeps (fun x => Settled B x.1 ∧ x.2.2 = false) := by
  have put : ∀ {v : World} (s : Reader) (cons : Option Nat) (b : List Byte), Settled B v → s.Fits → b.length ≤ 31 → Settled B (v.setText n (conc s cons b)) :=
    fun s cons b hv hs hb => settled_setText hv n _ (textGood_any hs hb) (fun h => absurd hn h)
  have plain : (do
      let (t, evs, consumed, stop) ← Run.lift ((w.text n).processStep i)
      let w ← tellEvents P k (w.setText n t) evs
      pure (w, consumed, stop) : Run (World × Nat × Bool)).Keeps (fun x => Settled B x.1 ∧ x.2.2 = false) := by
    obtain ⟨s, cons, b, hs, hb, ht, hc⟩ := h.texts n
    have ht : w.text n = conc s cons b := ht
    rw [ht] at hi
    have hi : i < b.length := hi
    have hpl : (b.take i).length = i := by rw [List.length_take]; omega
    obtain ⟨m, s', es, h1, h2, h3, h4, -⟩ := processStep_conc s hs cons (b.take i) (b.drop i)
      (by intro e; have := congrArg List.length e; rw [List.length_drop] at this; simp at this; omega)
      (by rw [List.take_append_drop]; exact hb)
    rw [List.take_append_drop, hpl] at h1
    rw [ht, h1]
    refine sat_bind (Q := fun x => x = (conc s' cons b, toEvents cons es, i + m, false)) rfl ?_
    rintro _ rfl
    exact sat_bind (tellEvents_settled hR _ _ (put s' cons b h h4 hb)) (fun v hv => sat_pure ⟨hv, rfl⟩)
  have done : ∀ (u : World) (c : Nat), Settled B u → (pure (u, c, false) : Run (World × Nat × Bool)).Keeps
      (fun x => Settled B x.1 ∧ x.2.2 = false) := fun u c hu => sat_pure ⟨hu, rfl⟩
  unfold processStepN
  split
  · exact plain
  · exact plain
  · exact plain
  · exact plain
  · refine sat_bind (findTokenN_settled hR hn w i [TextParser.kKeyStop, TextParser.kValueStop] (by intro c hc; revert c; decide) (by decide) .key h hi) ?_
    rintro ⟨v, r⟩ hv
    have hv : Settled B v := hv
    simp only
    split
    · split
      · obtain ⟨s, cons, b, hs, hb, ht, hc⟩ := hv.texts n
        rw [show v.text n = conc s cons b from ht]
        exact done _ _ (put { s with mode := .value } cons b hv ⟨hs.sect, hs.key, hs.value⟩ hb)
      · split
        · obtain ⟨s, cons, b, hs, hb, ht, hc⟩ := hv.texts n
          rw [show v.text n = conc s cons b from ht]
          refine sat_bind (lift_is _ (ofc.erase (cap := 26) hs.value)) ?_
          rintro _ rfl
          refine sat_bind (tellEvents_settled hR _ _ (put { s with value := [] } cons b hv ⟨hs.sect, hs.key, Nat.zero_le _⟩ hb)) ?_
          intro u hu
          obtain ⟨s2, cons2, b2, hs2, hb2, ht2, hc2⟩ := hu.texts n
          rw [show u.text n = conc s2 cons2 b2 from ht2]
          refine sat_bind (lift_is _ (ofc.erase (cap := 11) hs2.key)) ?_
          rintro _ rfl
          exact done _ _ (put { s2 with key := [], mode := .look } cons2 b2 hu ⟨hs2.sect, Nat.zero_le _, hs2.value⟩ hb2)
        · exact done _ _ hv
    · exact done _ _ hv
  · refine sat_bind (findTokenN_settled hR hn w i [TextParser.kValueStop] (by intro c hc; revert c; decide) (by decide) .value h hi) ?_
    rintro ⟨v, r⟩ hv
    have hv : Settled B v := hv
    simp only
    split
    · refine sat_bind (tellEvents_settled hR _ _ hv) ?_
      intro u hu
      obtain ⟨s, cons, b, hs, hb, ht, hc⟩ := hu.texts n
      rw [show u.text n = conc s cons b from ht]
      refine sat_bind (lift_is _ (ofc.erase (cap := 11) hs.key)) ?_
      rintro _ rfl
      have hg : Settled B (u.setText n (conc { s with key := [] } cons b)) := put { s with key := [] } cons b hu ⟨hs.sect, Nat.zero_le _, hs.value⟩ hb
      show (Run.lift ((u.setText n (conc { s with key := [] } cons b)).text n).value.erase >>= _ : Run _).Sat _ _ _
      rw [setText_text]
      refine sat_bind (lift_is _ (ofc.erase (cap := 26) hs.value)) ?_
      rintro _ rfl
      rw [setText_text]
      exact done _ _ (put { s with key := [], value := [], mode := .look } cons b hg ⟨hs.sect, Nat.zero_le _, Nat.zero_le _⟩ hb)
    · exact done _ _ hv

theorem processLoopN_settled (fuel : Nat) (w : World) (i : Nat) (h : Settled B w) :
    (processLoopN P k fuel w n i).Keeps (fun x => Settled B x.1 ∧ (x.1.text n).buffer.len ≤ x.2) := by
  induction fuel generalizing w i with
  | zero => exact trivial
  | succ fuel ih =>
    unfold processLoopN
    split
    · next hl =>
      refine sat_bind (processStepN_settled hR hn w i h hl) ?_
      rintro ⟨v, j, stop⟩ ⟨hv, h1⟩
      have h1 : stop = false := h1
      subst h1
      exact ih v j hv
    · next hl => exact sat_pure ⟨h, Nat.not_lt.mp hl⟩

end
end

section
variable {P : Program} {k : World → Op → Run World} (hR : ∀ B w e, Settled B w → (react P k w e).Keeps (Settled B))
include hR

theorem addLoopN_settled (fuel : Nat) (w : World) (n : Nat) (input : BufferManager) (hin : BufOk input) (i : Nat) (h : Settled B w) :
    (addLoopN P k fuel w n input i).Keeps (Settled B) := by
  induction fuel generalizing w i with
  | zero => exact trivial
  | succ fuel ih =>
    unfold addLoopN
    split
    · split
      · exact reportParseErrorN_settled (hR B) w n h
      · obtain ⟨s, cons, b, hs, hb, ht, hc⟩ := h.texts n
        have ht : w.text n = conc s cons b := ht
        have hvok := (C28_view input hin i input.len).2.2.1
        have hpush := ofc.push_back (cap := 31) (c := b) hb (by omega) (input.subBufferManagerFrom i) (Nat.le_trans hvok.len_le hvok.mem_le)
        rw [ht]
        generalize hb1 : b ++ (content (input.subBufferManagerFrom i)).take (31 - b.length) = b1 at hpush
        have hlb : b1.length ≤ 31 := by rw [← hb1, List.length_append, List.length_take]; omega
        generalize min (31 - b.length) (content (input.subBufferManagerFrom i)).length = m at hpush
        refine sat_bind (lift_is _ hpush) ?_
        · rintro _ rfl
          refine sat_bind (processLoopN_settled (hR _) (Or.inr rfl : With B n n) _ _ _ (settled_setText (settled_with h n) n _ (textGood_any (cons := cons) hs hlb) (fun h => absurd (Or.inr rfl) h))) ?_
          rintro ⟨v, j⟩ ⟨hv, hj⟩
          have hv : Settled (With B n) v := hv
          obtain ⟨s2, cons2, b2, hs2, hb2, ht2, hc2⟩ := hv.texts n
          have ht2 : v.text n = conc s2 cons2 b2 := ht2
          have hj : (v.text n).buffer.len ≤ j := hj
          rw [ht2] at hj
          dsimp only
          rw [ht2]
          have hj : b2.length ≤ j := hj
          have hpop := ofc.pop_front (cap := 31) hb2 (by omega) j
          rw [List.drop_eq_nil_of_le hj] at hpop
          refine sat_bind (lift_is _ hpop) ?_
          rintro _ rfl
          refine ih _ _ (settled_without (n := n) (settled_setText hv n _ (textGood_any (cons := cons2) hs2 (b := []) (by simp)) (fun _ => rfl)) ?_)
          show ((v.setText n _).text n).buffer.len = 0
          rw [setText_text]
          rfl
    · exact sat_pure h

theorem addTextN_settled (w : World) (n : Nat) (input : BufferManager) (hin : BufOk input) (h : Settled B w) :
    (addTextN P k w n input).Keeps (Settled B) := by
  unfold addTextN
  split
  · exact reportParseErrorN_settled (hR B) w n h
  · exact addLoopN_settled hR _ w n input hin 0 h

theorem parserResetN_settled (w : World) (n : Nat) (h : Settled B w) : (parserResetN P k w n).Keeps (Settled B) := by
  unfold parserResetN
  refine sat_bind (tellConsumers_settled (hR B) w _ h) ?_
  intro v hv
  obtain ⟨s, cons, b, hs, hb, ht, -⟩ := hv.texts n
  have hclear : (v.parsers n).resetClear = .ok cleared := by
    unfold StreamParser.resetClear
    rw [ht]
    simp only [TextParser.reset, conc, bind, Except.bind]
    rw [ofc.erase (cap := 31) hb, ofc.erase (cap := 11) hs.sect, ofc.erase (cap := 11) hs.key, ofc.erase (cap := 26) hs.value]
    rfl
  rw [hclear]
  refine sat_bind (Q := fun x => x = cleared) rfl ?_
  rintro _ rfl
  exact sat_pure (settled_setParser hv n _ (textGood_any (s := .start) (cons := none) (b := []) Reader.fits_start (by simp)) (fun _ => rfl))

theorem parserAddN_settled (w : World) (n : Nat) (d : Data) (h : Settled B w) : (parserAddN P k w n d).Keeps (Settled B) := by
  unfold parserAddN
  split
  · exact parserResetN_settled hR w n h
  · next hres =>
    split
    · next hs =>
      have hd : d.dlc = 8#8 := by simpa [resets, hs] using hres
      have hbuf : BufOk { mem := d.bytes, cap := d.dlc.toNat, len := CanDataMaxLength } := by
        rw [hd]; exact ⟨(show 8 ≤ 8 by decide), (show 8 ≤ 255 by decide), (show 8 ≤ 9 by decide)⟩
      unfold parserDataN
      refine sat_bind (keeps_lift (Q := fun _ => True) (fun _ _ => trivial)) (fun crc _ => ?_)
      refine sat_bind (addTextN_settled hR _ n _ hbuf (settled_around h n _ rfl)) (fun v hv => ?_)
      split
      · refine sat_bind (keeps_lift (Q := fun _ => True) (fun _ _ => trivial)) (fun crc _ => ?_)
        split
        · exact tellConsumers_settled (hR B) _ _ (settled_around hv n _ rfl)
        · exact tellConsumers_settled (hR B) _ _ (settled_around hv n _ rfl)
      · exact sat_pure hv
    · next hs =>
      refine sat_bind (keeps_lift (Q := fun x => x.1.text = (w.parsers n).text) ?_) (fun x hx => tellConsumers_settled (hR B) _ _ (settled_around h n _ hx))
      intro x hx
      unfold StreamParser.addMessage at hx
      split at hx
      · cases hx; rfl
      · cases hx; rfl
      · next hst =>
        unfold StreamParser.addFirst at hx
        have hd : d.dlc = 6#8 ∨ d.dlc = 7#8 := by
          simp only [resets, hst, decide_eq_true_eq] at hres
          by_cases h6 : d.dlc = 6#8
          · exact Or.inl h6
          · by_cases h7 : d.dlc = 7#8
            · exact Or.inr h7
            · exact absurd ⟨h6, h7⟩ hres
        rw [if_pos hd] at hx
        obtain ⟨crc, -, hx⟩ := bind_ok hx
        dsimp only at hx
        split at hx
        · cases hx; rfl
        · cases hx; rfl
      · next hst => exact absurd hst hs

theorem runCallN_settled (w : World) (c : Call) (h : Settled B w) : (runCallN P k w c).Keeps (Settled B) := by
  unfold runCallN
  split
  · exact sat_pure (settled_around h _ _ rfl)
  · exact parserAddN_settled hR w _ _ h
  · exact parserResetN_settled hR w _ h
  · split
    · exact trivial
    · exact hR B _ _ (settled_of h rfl)
  · exact hR B _ _ (settled_of h rfl)

theorem runCallsN_settled (w : World) (r : Res (List Call)) (h : Settled B w) : (runCallsN P k w r).Keeps (Settled B) :=
  sat_bind (Q := fun _ => True) (keeps_lift (fun _ _ => trivial)) (fun _ _ => sat_foldlM _ _ _ _ (fun c _ u hu => runCallN_settled hR u c hu) h)

theorem finishN_settled (w : World) (h : Settled B w) : (finishN P k w).Keeps (fun v => Settled B v ∧ v.station.callbacks.configData = none) := by
  unfold finishN
  split
  · next hc => exact sat_pure ⟨h, hc⟩
  · exact sat_bind (parserResetN_settled hR w _ h) (fun v hv => sat_pure ⟨settled_of hv rfl, rfl⟩)

theorem requestEngineN_settled (w : World) (info : World → ShortInfo) (p : Option Nat) (h : Settled B w) :
    (requestEngineN P k w info p).Keeps (Settled B) := by
  have any : ∀ {α : Type} (r : Res α), (Run.lift r).Keeps (fun _ => True) := fun r => keeps_lift (fun _ _ => trivial)
  unfold requestEngineN
  split
  · exact sat_pure h
  · split
    · exact sat_pure h
    · refine sat_bind (finishN_settled hR w h) (fun v hv => ?_)
      have h1 : Settled B (match p with | none => v.register p | some n => (v.register p).setParser n ((v.register p).parsers n).startStream) := by
        cases p with
        | none => exact settled_of hv.1 rfl
        | some n => exact settled_around (w := v.register (some n)) (settled_of hv.1 rfl) n _ rfl
      refine sat_bind (any _) (fun _ _ => ?_)
      refine sat_bind (runCallsN_settled hR _ _ h1) (fun v hv => ?_)
      refine sat_bind (any _) (fun _ _ => ?_)
      refine sat_bind (any _) (fun _ _ => ?_)
      refine sat_bind (runCallsN_settled hR _ _ hv) (fun v hv => ?_)
      refine sat_bind (any _) (fun _ _ => ?_)
      exact runCallsN_settled hR _ _ hv

theorem stepN_settled (w : World) (op : Op) (h : Settled B w) : (stepN P k w op).Keeps (Settled B) := by
  have same : ∀ {r : Res World}, (∀ v, r = .ok v → v.parsers = w.parsers) → (Run.lift r).Keeps (Settled B) :=
    fun hr => keeps_lift (fun v hv => settled_of h (hr v hv))
  cases op with
  | begin_ uuid cbs =>
    refine sat_bind (finishN_settled hR w h) ?_
    rintro v ⟨hv, hc⟩
    have : v.step (.begin_ uuid cbs) = .ok { v with station := { callbacks := cbs, senderHash := computeSenderHash (uuid.zeroExtend 32) } } := by
      simp only [step, stationUpdate, Station.begin_, Station.AbortCurrentConfigRequest, Station.FinishCurrentConfigRequest, hc, bind, Except.bind]
      rfl
    rw [this]
    exact settled_of hv rfl
  | requestEngineList off p =>
    refine sat_bind (finishN_settled hR w h) (fun v hv => ?_)
    refine sat_bind (keeps_lift (Q := fun _ => True) (fun _ _ => trivial)) (fun x _ => ?_)
    obtain ⟨s, cs⟩ := x
    exact runCallsN_settled hR _ _ (settled_of hv.1 rfl)
  | requestEngine e p => exact requestEngineN_settled hR w (fun w => (w.engines e).info) p h
  | requestShortInfo i p => exact requestEngineN_settled hR w (fun _ => i) p h
  | finish => exact sat_mono (finishN_settled hR w h) (fun _ h => h.1)
  | abort => exact sat_mono (finishN_settled hR w h) (fun _ h => h.1)
  | notifyReceived => exact sat_mono (finishN_settled hR w h) (fun _ h => h.1)
  | parserAdd n d => exact parserAddN_settled hR w n d h
  | parserReset n => exact parserResetN_settled hR w n h
  | parserStart n c =>
    refine keeps_lift (fun v hv => ?_)
    cases hv
    obtain ⟨s, cons, b, hs, hb, ht, -⟩ := h.texts n
    refine settled_setParser h n _ ?_ (h.empty n)
    show TextGood _ ((w.parsers n).text.setConsumer c)
    rw [ht]
    exact textGood_any (cons := c) hs hb
  | parserStartStream n => exact keeps_lift (fun v hv => by cases hv; exact settled_around h n _ rfl)
  | setEngine c e => exact same (fun v hv => by simp only [step] at hv; split at hv <;> cases hv <;> rfl)
  | setEndCallback c e => exact same (fun v hv => by simp only [step] at hv; split at hv <;> cases hv <;> rfl)
  | setStreamOffset c e => exact same (fun v hv => by simp only [step] at hv; split at hv <;> cases hv <;> rfl)
  | clearTable c => exact same (fun v hv => by simp only [step] at hv; split at hv <;> cases hv <;> rfl)
  | resetList c => exact same (fun v hv => by simp only [step] at hv; split at hv <;> cases hv <;> rfl)
  | setName e name => exact same (fun v hv => by simp only [step] at hv; obtain ⟨l, -, hv⟩ := bind_ok hv; cases hv; rfl)
  | assignEngine e l => exact same (fun v hv => by cases hv; rfl)
  | _ => exact runCallsN_settled hR w _ h

end

theorem nested_settled (P : Program) (depth : Nat) (w : World) (op : Op) (h : Settled B w) : (nested P depth w op).Keeps (Settled B) := by
  induction depth generalizing B w op with
  | zero => exact trivial
  | succ depth ih => exact stepN_settled (fun B w e h => sat_foldlM _ _ _ _ (fun op _ u hu => ih u op hu) h) w op h

theorem main_settled (P : Program) (depth : Nat) (w : World) (op : Op) (h : Settled B w) : (stepN P (nested P depth) w op).Keeps (Settled B) :=
  nested_settled P (depth + 1) w op h

end World

end RR32
