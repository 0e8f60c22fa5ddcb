import Verif.Props.Console
import Verif.Props.Printed

/-! # C68 for whole programs -/

set_option autoImplicit false

namespace RR32

open Spec World

theorem wholeLines_append {a b : List Byte} (ha : WholeLines a) (hb : WholeLines b) : WholeLines (a ++ b) := by
  rcases hb with rfl | hb
  · rw [List.append_nil]; exact ha
  · right
    rw [getLast?_append_right _ _ (by intro e; rw [e] at hb; cases hb), hb]

theorem consumerText_lines (w : World) (c : ConsumerCall) (t : List Byte) (h : w.consumerText .template c = .ok t) : WholeLines t := by
  unfold consumerText at h
  split at h
  · obtain ⟨a, ha, h⟩ := bind_ok h
    cases ha
    obtain ⟨b, -, h⟩ := bind_ok h
    cases b with
    | none => cases h; exact Or.inl rfl
    | some n =>
      obtain ⟨d, hd, h⟩ := bind_ok h
      cases hd
      cases h
      exact Or.inl rfl
  · obtain ⟨b, -, h⟩ := bind_ok h
    cases b with
    | none => cases h; exact Or.inl rfl
    | some n =>
      unfold LocoConsumer.completeText at h
      obtain ⟨x, -, h⟩ := bind_ok h
      cases h
      exact wholeLines_end _
  · cases h; exact Or.inl rfl
  · obtain ⟨a, ha, h⟩ := bind_ok h
    cases ha
    obtain ⟨b, hb, h⟩ := bind_ok h
    cases h
    rw [List.nil_append]
    unfold LocoListConsumer.consumeText at hb
    obtain ⟨m, -, hb⟩ := bind_ok hb
    split at hb
    · split at hb
      · cases hb; exact Or.inr (by decide)
      · obtain ⟨x, -, hb⟩ := bind_ok hb
        cases hb
        exact wholeLines_end _
    · obtain ⟨m2, -, hb⟩ := bind_ok hb
      split at hb
      · cases hb; exact Or.inl rfl
      · obtain ⟨x, -, hb⟩ := bind_ok hb
        cases hb
        exact wholeLines_line _ _ (by decide)
  · cases h; exact Or.inl rfl
  · cases h; exact Or.inl rfl

theorem inTurn_lines {α : Type} {f : World → α → Res (World × List Byte)} (hf : ∀ w x v t, f w x = .ok (v, t) → WholeLines t)
    (w v : World) (xs : List α) (t : List Byte) (h : inTurn f w xs = .ok (v, t)) : WholeLines t := by
  induction xs generalizing w v t with
  | nil => cases h; exact Or.inl rfl
  | cons x xs ih =>
    rw [inTurn] at h
    obtain ⟨⟨u, t1⟩, h1, h⟩ := bind_ok h
    obtain ⟨⟨v', t2⟩, h2, h⟩ := bind_ok h
    cases h
    exact wholeLines_append (hf w x u t1 h1) (ih u v t2 h2)

theorem callConsumerO_lines (w : World) (c : ConsumerCall) (v : World) (t : List Byte) (h : callConsumerO .template w c = .ok (v, t)) :
    WholeLines t := by
  unfold callConsumerO at h
  obtain ⟨x, h1, h⟩ := bind_ok h
  obtain ⟨y, -, h⟩ := bind_ok h
  cases h
  exact consumerText_lines w c _ h1

theorem messageText_lines (p : StreamParser) (d : Data) : WholeLines (p.messageText d) := by
  unfold StreamParser.messageText
  split
  · exact Or.inr (by decide)
  · exact Or.inr (by decide)
  · split
    · exact Or.inl rfl
    · split <;> exact Or.inr (by decide)
  · split
    · exact Or.inr (by decide)
    · exact Or.inl rfl

theorem parserAddO_lines (w : World) (n : Nat) (d : Data) (v : World) (t : List Byte) (h : w.parserAddO .template n d = .ok (v, t)) :
    WholeLines t := by
  unfold parserAddO at h
  obtain ⟨t1, h1, h⟩ := bind_ok h
  obtain ⟨⟨q, cs⟩, -, h⟩ := bind_ok h
  obtain ⟨⟨u, t2⟩, h2, h⟩ := bind_ok h
  obtain ⟨t3, h3, h⟩ := bind_ok h
  obtain ⟨⟨x, t4⟩, h4, h⟩ := bind_ok h
  cases h
  have e1 : WholeLines t1 := by
    unfold StreamParser.headText at h1
    have hm := messageText_lines (w.parsers n) d
    split at h1
    · split at h1
      · cases h1; exact Or.inl rfl
      · cases h1; exact hm
    · split at h1
      · cases h1; exact Or.inl rfl
      · cases h1; exact hm
    · cases h1; exact hm
  have e3 : t3 = [] := by
    unfold StreamParser.tailText at h3
    split at h3
    · split at h3 <;> cases h3 <;> rfl
    · cases h3; rfl
  rw [e3, List.append_nil]
  exact wholeLines_append (wholeLines_append e1 (inTurn_lines callConsumerO_lines _ _ _ _ h2)) (inTurn_lines callConsumerO_lines _ _ _ _ h4)

theorem runCallO_lines (w : World) (c : Call) (v : World) (t : List Byte) (h : runCallO .template w c = .ok (v, t)) : WholeLines t := by
  cases c with
  | cfgAdd n d => exact parserAddO_lines w n d v t h
  | cfgReset n => exact Or.inl (parserResetO_text w v n t h)
  | _ => cases h; exact Or.inl rfl

/-- C68, for a whole call with everything that it makes the parser and the consumers print: the text is made of whole lines, exactly if
the call does not receive one of the frames of `Unfinished`. What is missing: those frames. -/
theorem C68_call_partial (w v : World) (op : Op) (t : List Byte) (h : w.stepO .template op = .ok (v, t)) :
    WholeLines t ↔ ¬∃ f, op = .handle f ∧ Unfinished w.station w.processing f := by
  by_cases hh : ∃ f, op = .handle f
  · obtain ⟨f, rfl⟩ := hh
    unfold stepO at h
    obtain ⟨t0, h0, h⟩ := bind_ok h
    simp only [stationPart] at h
    obtain ⟨⟨s, cs⟩, h1, h⟩ := bind_ok h
    obtain ⟨⟨v', t1⟩, h2, h⟩ := bind_ok h
    cases h
    obtain ⟨cs', h3, h1⟩ := bind_ok h1
    cases h1
    have h0' : w.station.packetText w.processing f = .ok t0 := by
      simp only [opText, handleText] at h0
      obtain ⟨x, e1, h0⟩ := bind_ok h0
      obtain ⟨x2, e2, h0⟩ := bind_ok h0
      obtain ⟨x3, e3, h0⟩ := bind_ok h0
      obtain ⟨x4, e4, h0⟩ := bind_ok h0
      obtain ⟨x5, e5, h0⟩ := bind_ok h0
      cases e1; cases e2; cases e3; cases e4; cases h0
      rw [e5]
      rfl
    have hl := C68_lines_partial w.station w.processing f t0 h0'
    have hex : (∃ f', Op.handle f = .handle f' ∧ Unfinished w.station w.processing f') ↔ Unfinished w.station w.processing f :=
      ⟨fun ⟨f', e, hf⟩ => by cases e; exact hf, fun h => ⟨f, rfl, h⟩⟩
    rw [hex]
    by_cases hu : Unfinished w.station w.processing f
    · have ht1 : t1 = [] := by
        refine runCallsO_text _ _ cs (fun c hc n d e => ?_) t1 h2
        subst e
        obtain ⟨a1, a2, -, a4⟩ := (C23_delivery w.station w.processing f cs h3 n d).mp hc
        have a4 : commandOf f = 0x21 := a4
        rcases hu with ⟨b1, -⟩ | ⟨-, b2 | b2, -⟩
        · rw [b1] at a4; cases a4
        · rw [a1] at b2; cases b2
        · rw [a2] at b2; cases b2
      rw [ht1, List.append_nil]
      exact hl
    · exact ⟨fun _ => hu, fun _ => wholeLines_append (hl.mpr hu) (inTurn_lines runCallO_lines _ _ _ _ h2)⟩
  · refine ⟨fun _ ⟨f, e, _⟩ => hh ⟨f, e⟩, fun _ => ?_⟩
    by_cases hr : op.receives = false
    · exact Or.inl (C86_silent w v op hr t h)
    · cases op with
      | handle f => exact absurd ⟨f, rfl⟩ hh
      | parserAdd n d =>
        unfold stepO at h
        obtain ⟨t0, h0, h⟩ := bind_ok h
        exact parserAddO_lines w n d v t h
      | _ => exact absurd rfl hr

/-- C68, for whole histories: as long as no frame of `Unfinished` arrives, the console shows whole lines after every call. -/
theorem C68_history_partial (w v : World) (ops : List Op) (t : List Byte) (h : w.runO .template ops = .ok (v, t))
    (hu : ∀ before f later, ops = before ++ .handle f :: later → ∀ x, w.run before = .ok x → ¬Unfinished x.station x.processing f) :
    WholeLines t := by
  induction ops generalizing w v t with
  | nil => cases h; exact Or.inl rfl
  | cons op ops ih =>
    rw [runO, inTurn] at h
    obtain ⟨⟨u, t1⟩, h1, h⟩ := bind_ok h
    obtain ⟨⟨v', t2⟩, h2, h⟩ := bind_ok h
    cases h
    refine wholeLines_append ((C68_call_partial w u op t1 h1).mpr ?_) (ih u v t2 h2 ?_)
    · rintro ⟨f, rfl, hf⟩
      exact hu [] f ops rfl w rfl hf
    · intro before f later e x hx
      refine hu (op :: before) f later (by rw [e]; rfl) x ?_
      rw [World.run_cons, ((prints_step .template).same h1).1]
      exact hx

/-! ## Cases -/

/-- A program that receives a request for a file, a switch that is thrown, and text of somebody else. -/
example : ∃ v t, caseLogged.runO .template [.handle { id := ⟨0x160301#32⟩, data := { dlc := 6#8 } },
    .handle { id := ⟨0x840301#32⟩, data := { dlc := 2#8, b0 := 72#8, b1 := 105#8 } }] = .ok (v, t) ∧ WholeLines t ∧ t ≠ [] := by
  refine ⟨_, _, rfl, Or.inr ?_, ?_⟩ <;> decide +kernel

end RR32
