import Verif.Model.Nested
import Verif.Props.Reentrant

/-! # Callbacks that call back: programs whose callbacks only record -/

set_option autoImplicit false

namespace RR32

namespace World

/-- No callback calls back. -/
def _root_.RR32.Program.Silent (P : Program) : Prop := ∀ w e, P w e = []

theorem lift_bind {α β : Type} (r : Res α) (f : α → Res β) : (Run.lift r >>= fun a => Run.lift (f a)) = Run.lift (r >>= f) := by
  cases r <;> rfl

theorem lift_pure {α : Type} (r : Res α) : (Run.lift r >>= fun a => (pure a : Run α)) = Run.lift r := by
  cases r <;> rfl

theorem foldlM_pure {α β : Type} (f : β → α → Run β) (h : ∀ b a, f b a = pure b) (l : List α) (b : β) : l.foldlM f b = pure b := by
  induction l with
  | nil => rfl
  | cons x l ih => rw [List.foldlM_cons, h]; exact ih

theorem foldlM_lift {α β : Type} (f : β → α → Run β) (g : β → α → Res β) (h : ∀ b a, f b a = Run.lift (g b a)) (l : List α) (b : β) :
    l.foldlM f b = Run.lift (l.foldlM g b) := by
  induction l generalizing b with
  | nil => rfl
  | cons x l ih =>
    rw [List.foldlM_cons, List.foldlM_cons, h]
    simp only [ih]
    exact lift_bind _ _

section
variable {P : Program} {k : World → Op → Run World} (hP : P.Silent)
include hP

theorem react_silent (w : World) (e : LogEntry) : react P k w e = pure w := by
  unfold react
  rw [hP]
  rfl

theorem tell_silent (w : World) (e : LogEntry) : tell P k w e = pure (w.logAll [e]) := react_silent hP _ _

theorem callConsumerN_silent (w : World) (c : ConsumerCall) : callConsumerN P k w c = Run.lift (w.callConsumer c) := by
  unfold callConsumerN
  simp only [foldlM_pure _ (react_silent hP)]
  exact lift_pure _

theorem tellConsumers_silent (w : World) (cs : List ConsumerCall) : tellConsumers P k w cs = Run.lift (w.callConsumers cs) :=
  foldlM_lift _ _ (callConsumerN_silent hP) cs w

theorem tellEvents_silent (w : World) (evs : List ParseEvent) :
    tellEvents P k w evs = Run.lift (w.callConsumers (evs.map StreamParser.ofParseEvent)) := foldlM_lift _ _ (callConsumerN_silent hP) _ w

end

theorem setText_self (w : World) (n : Nat) : w.setText n (w.text n) = w := by
  have h : (fun m => if m = n then w.parsers n else w.parsers m) = w.parsers := by
    funext m
    by_cases hm : m = n
    · rw [if_pos hm, hm]
    · rw [if_neg hm]
  show ({ w with parsers := fun m => if m = n then w.parsers n else w.parsers m } : World) = w
  rw [h]

theorem setText_text (w : World) (n : Nat) (t : TextParser) : (w.setText n t).text n = t := by
  unfold text setText
  rw [setParser_get]

theorem setParser_setParser (w : World) (n : Nat) (p q : StreamParser) : (w.setParser n p).setParser n q = w.setParser n q := by
  unfold setParser
  simp only [World.mk.injEq, true_and, and_true]
  funext m
  split <;> rfl

theorem setText_setText (w : World) (n : Nat) (t t' : TextParser) : (w.setText n t).setText n t' = w.setText n t' := by
  unfold setText
  rw [setParser_get, setParser_setParser]

theorem callConsumers_setText (w : World) (n : Nat) (t : TextParser) (cs : List ConsumerCall) :
    (w.setText n t).callConsumers cs = (w.callConsumers cs).map (fun u => u.setText n t) := by
  unfold setText
  rw [callConsumers_setParser]
  cases h : w.callConsumers cs with
  | error e => rfl
  | ok u =>
    obtain ⟨-, hp⟩ := callConsumers_quiet _ _ _ h
    simp only [Except.map, hp]

/-- The calls on the consumer, in the world outside of parser `n`. -/
abbrev evCalls (evs : List ParseEvent) : List ConsumerCall := evs.map StreamParser.ofParseEvent

theorem calls_setText_ok {w : World} {n : Nat} {t : TextParser} {cs : List ConsumerCall} {v : World} :
    (w.setText n t).callConsumers cs = .ok v ↔ ∃ u, w.callConsumers cs = .ok u ∧ v = u.setText n t := by
  rw [callConsumers_setText]
  cases w.callConsumers cs with
  | error e => exact ⟨fun h => (by cases h), fun ⟨_, h, _⟩ => (by cases h)⟩
  | ok u => exact ⟨fun h => (by cases h; exact ⟨u, rfl, rfl⟩), fun ⟨_, h, e⟩ => (by cases h; rw [e]; rfl)⟩

/-- A part of the text parser ran and returned `a`, with calls on the consumer: the parser is left with the text parser `t`. -/
def Ran {α : Type} (w : World) (n : Nat) (r : Res (TextParser × List ParseEvent × α)) (v : World) (a : α) : Prop :=
  ∃ t evs u, r = .ok (t, evs, a) ∧ w.callConsumers (evCalls evs) = .ok u ∧ v = u.setText n t

theorem ran_ok {α : Type} {w : World} {n : Nat} {t : TextParser} {evs : List ParseEvent} {a b : α} {v : World} :
    Ran w n (.ok (t, evs, a)) v b ↔ b = a ∧ ∃ u, w.callConsumers (evCalls evs) = .ok u ∧ v = u.setText n t := by
  constructor
  · rintro ⟨t', evs', u, h, h1, h2⟩
    cases h
    exact ⟨rfl, u, h1, h2⟩
  · rintro ⟨rfl, u, h1, h2⟩
    exact ⟨t, evs, u, rfl, h1, h2⟩

theorem ran_error {α : Type} {w : World} {n : Nat} {e : Fault} {a : α} {v : World} : ¬Ran w n (.error e) v a := by
  rintro ⟨_, _, _, h, -⟩
  cases h

/-- The same for a part of the text parser without a result. -/
def RanText (w : World) (n : Nat) (r : Res (TextParser × List ParseEvent)) (v : World) : Prop :=
  ∃ t evs u, r = .ok (t, evs) ∧ w.callConsumers (evCalls evs) = .ok u ∧ v = u.setText n t

theorem ranText_ok {w : World} {n : Nat} {t : TextParser} {evs : List ParseEvent} {v : World} :
    RanText w n (.ok (t, evs)) v ↔ ∃ u, w.callConsumers (evCalls evs) = .ok u ∧ v = u.setText n t := by
  constructor
  · rintro ⟨t', evs', u, h, h1, h2⟩
    cases h
    exact ⟨u, h1, h2⟩
  · rintro ⟨u, h1, h2⟩
    exact ⟨t, evs, u, rfl, h1, h2⟩

theorem ranText_error {w : World} {n : Nat} {e : Fault} {v : World} : ¬RanText w n (.error e) v := by
  rintro ⟨_, _, _, h, -⟩
  cases h

theorem returns_pure {α : Type} {a b : α} : (pure a : Run α).Returns b ↔ a = b := by
  constructor
  · intro h; cases h; rfl
  · rintro rfl; rfl

/-- Going on after a part of the text parser. -/
theorem ran_append {w v : World} {n : Nat} {t t' : TextParser} {evs evs' : List ParseEvent} :
    (∃ u, w.callConsumers (evCalls (evs ++ evs')) = .ok u ∧ v = u.setText n t') ↔
      ∃ u, w.callConsumers (evCalls evs) = .ok u ∧ ∃ u', (u.setText n t).callConsumers (evCalls evs') = .ok u' ∧ v = u'.setText n t' := by
  unfold evCalls
  rw [List.map_append, callConsumers_append]
  constructor
  · rintro ⟨u, h, rfl⟩
    obtain ⟨u1, h1, h2⟩ := bind_ok h
    exact ⟨u1, h1, _, calls_setText_ok.mpr ⟨u, h2, rfl⟩, by rw [setText_setText]⟩
  · rintro ⟨u1, h1, u', h2, rfl⟩
    obtain ⟨u, h3, rfl⟩ := calls_setText_ok.mp h2
    exact ⟨u, by rw [h1]; exact h3, by rw [setText_setText]⟩

/-- No consumer of the application calls back when it is given an entry; all other callbacks may. -/
def _root_.RR32.Program.Reserved (P : Program) : Prop := ∀ w i s x v, P w (.consumer ⟨i, .consume s x v⟩) = []

theorem _root_.RR32.Program.Silent.reserved {P : Program} (h : P.Silent) : P.Reserved := fun w _ _ _ _ => h w _

/-- A call that gives an entry to a consumer logs itself only. -/
theorem consume_log {w v : World} {i : Nat} {s x y : BufferManager} (h : w.callConsumer ⟨i, .consume s x y⟩ = .ok v) :
    v.log = w.log ++ [.consumer ⟨i, .consume s x y⟩] := by
  obtain ⟨-, -, -, -, l, h1, h2⟩ := callConsumer_log w v _ h
  rcases h2 with rfl | ⟨_, _, _, -, h2, -⟩
  · rw [h1, List.append_nil]
  · cases h2

section
variable {P : Program} {k : World → Op → Run World} (hP : P.Reserved)
include hP

theorem consumeN_reserved (w : World) (i : Nat) (s x v : BufferManager) :
    callConsumerN P k w ⟨i, .consume s x v⟩ = Run.lift (w.callConsumer ⟨i, .consume s x v⟩) := by
  unfold callConsumerN
  cases h : w.callConsumer ⟨i, .consume s x v⟩ with
  | error e => rfl
  | ok u =>
    show ((u.log.drop w.log.length).filter w.reachesApp).foldlM (react P k) u = pure u
    rw [consume_log h, List.drop_left' rfl]
    by_cases hr : w.reachesApp (.consumer ⟨i, .consume s x v⟩) = true
    · rw [List.filter_cons_of_pos hr]
      show react P k u _ >>= _ = _
      unfold react
      rw [hP]
      rfl
    · rw [List.filter_cons_of_neg hr]
      rfl

theorem tellEvents_reserved (w : World) (evs : List ParseEvent) :
    tellEvents P k w evs = Run.lift (w.callConsumers (evs.map StreamParser.ofParseEvent)) := by
  unfold tellEvents callConsumers
  induction evs generalizing w with
  | nil => rfl
  | cons e evs ih =>
    rw [List.map_cons, List.foldlM_cons, List.foldlM_cons]
    rw [show callConsumerN P k w (StreamParser.ofParseEvent e) = Run.lift (w.callConsumer (StreamParser.ofParseEvent e)) from
      consumeN_reserved hP w _ _ _ _]
    simp only [ih]
    exact lift_bind _ _

theorem tellEvents_returns (w v : World) (n : Nat) (t : TextParser) (evs : List ParseEvent) :
    (tellEvents P k (w.setText n t) evs).Returns v ↔ ∃ u, w.callConsumers (evCalls evs) = .ok u ∧ v = u.setText n t := by
  rw [tellEvents_reserved hP, returns_lift, calls_setText_ok]

theorem findTokenN_silent (w v : World) (n offset : Nat) (chars : List Byte) (d : TextParser.Dest) (r : TextParser.FindTokenResult) :
    (findTokenN P k w n offset chars d).Returns (v, r) ↔ Ran w n ((w.text n).findToken offset chars d) v r := by
  unfold findTokenN
  rw [returns_bind]
  constructor
  · rintro ⟨⟨t, evs, r'⟩, h1, h2⟩
    obtain ⟨v', h3, h4⟩ := returns_bind.mp h2
    obtain ⟨u, h5, rfl⟩ := (tellEvents_returns hP _ _ _ _ _).mp h3
    cases h4
    exact ⟨t, evs, u, returns_lift.mp h1, h5, rfl⟩
  · rintro ⟨t, evs, u, h1, h2, rfl⟩
    exact ⟨_, returns_lift.mpr h1, returns_bind.mpr ⟨_, (tellEvents_returns hP _ _ _ _ _).mpr ⟨u, h2, rfl⟩, rfl⟩⟩

theorem processStepN_silent (w v : World) (n c : Nat) (c' : Nat) (b : Bool) :
    (processStepN P k w n c).Returns (v, c', b) ↔ Ran w n ((w.text n).processStep c) v (c', b) := by
  have hplain : (Run.lift ((w.text n).processStep c) >>= fun x => tellEvents P k (w.setText n x.1) x.2.1 >>= fun w =>
      (pure (w, x.2.2.1, x.2.2.2) : Run (World × Nat × Bool))).Returns (v, c', b) ↔ Ran w n ((w.text n).processStep c) v (c', b) := by
    rw [returns_bind]
    constructor
    · rintro ⟨⟨t, evs, r'⟩, h1, h2⟩
      obtain ⟨v', h3, h4⟩ := returns_bind.mp h2
      obtain ⟨u, h5, rfl⟩ := (tellEvents_returns hP _ _ _ _ _).mp h3
      cases h4
      exact ⟨t, evs, u, returns_lift.mp h1, h5, rfl⟩
    · rintro ⟨t, evs, u, h1, h2, rfl⟩
      exact ⟨_, returns_lift.mpr h1, returns_bind.mpr ⟨_, (tellEvents_returns hP _ _ _ _ _).mpr ⟨u, h2, rfl⟩, rfl⟩⟩
  unfold processStepN
  cases hs : (w.text n).state with
  | LOOKING_FOR_KEY_OR_SECTION_START => exact hplain
  | PARSING_SECTION => exact hplain
  | LOOKING_FOR_VALUE_START => exact hplain
  | ERROR => exact hplain
  | PARSING_KEY =>
    clear hplain
    unfold TextParser.processStep
    simp only [hs]
    rw [returns_bind]
    cases hf : (w.text n).findToken c [TextParser.kKeyStop, TextParser.kValueStop, 0#8] .key with
    | error e =>
      constructor
      · rintro ⟨⟨v', r⟩, h1, -⟩
        rw [findTokenN_silent hP, hf] at h1
        exact absurd h1 ran_error
      · intro h; exact absurd h ran_error
    | ok x =>
      obtain ⟨t, evs, r⟩ := x
      have key : ∀ Q : World × TextParser.FindTokenResult → Prop,
          (∃ a, (findTokenN P k w n c [TextParser.kKeyStop, TextParser.kValueStop, 0#8] .key).Returns a ∧ Q a) ↔
          ∃ u, w.callConsumers (evCalls evs) = .ok u ∧ Q (u.setText n t, r) := by
        intro Q
        constructor
        · rintro ⟨⟨v', r'⟩, h1, h2⟩
          rw [findTokenN_silent hP, hf, ran_ok] at h1
          obtain ⟨rfl, u, h3, rfl⟩ := h1
          exact ⟨u, h3, h2⟩
        · rintro ⟨u, h3, h2⟩
          exact ⟨_, (findTokenN_silent hP ..).mpr (by rw [hf, ran_ok]; exact ⟨rfl, u, h3, rfl⟩), h2⟩
      rw [key]
      simp only [bind, Except.bind, setText_text, setText_setText]
      by_cases hsu : r.success = true
      · simp only [hsu, if_true]
        by_cases h1 : r.matchingChar = TextParser.kKeyStop
        · simp only [h1, if_true, ran_ok, returns_pure, Prod.mk.injEq]
          constructor
          · rintro ⟨u, h2, rfl, rfl, rfl⟩; exact ⟨⟨rfl, rfl⟩, u, h2, rfl⟩
          · rintro ⟨⟨rfl, rfl⟩, u, h2, rfl⟩; exact ⟨u, h2, rfl, rfl, rfl⟩
        · simp only [h1, if_false]
          by_cases h2 : r.matchingChar = TextParser.kValueStop
          · simp only [h2, if_true]
            cases hv : t.value.erase with
            | error e =>
              constructor
              · rintro ⟨u, -, h⟩; obtain ⟨_, h, -⟩ := returns_bind.mp h; cases h
              · intro h; exact absurd h ran_error
            | ok value =>
              simp only
              cases hk : t.key.erase with
              | error e =>
                constructor
                · rintro ⟨u, -, h⟩
                  obtain ⟨_, h, h'⟩ := returns_bind.mp h
                  cases h
                  obtain ⟨_, h, h'⟩ := returns_bind.mp h'
                  rw [tellEvents_returns hP] at h
                  obtain ⟨u', -, rfl⟩ := h
                  rw [setText_text] at h'
                  obtain ⟨_, h, -⟩ := returns_bind.mp h'
                  rw [returns_lift, hk] at h
                  cases h
                · intro h; exact absurd h ran_error
              | ok key =>
                rw [ran_ok, Prod.mk.injEq, ran_append (t := { t with value := value })]
                constructor
                · rintro ⟨u, hu, h⟩
                  obtain ⟨_, h, h'⟩ := returns_bind.mp h
                  cases h
                  obtain ⟨_, h, h'⟩ := returns_bind.mp h'
                  rw [tellEvents_returns hP] at h
                  obtain ⟨u', hu', rfl⟩ := h
                  rw [setText_text] at h'
                  obtain ⟨_, h, h'⟩ := returns_bind.mp h'
                  rw [returns_lift, hk] at h
                  cases h
                  rw [returns_pure, Prod.mk.injEq, Prod.mk.injEq, setText_setText] at h'
                  obtain ⟨rfl, rfl, rfl⟩ := h'
                  exact ⟨⟨rfl, rfl⟩, u, hu, _, calls_setText_ok.mpr ⟨u', hu', rfl⟩, by rw [setText_setText]⟩
                · rintro ⟨⟨rfl, rfl⟩, u, hu, u'', hu'', rfl⟩
                  obtain ⟨u', hu', rfl⟩ := calls_setText_ok.mp hu''
                  refine ⟨u, hu, returns_bind.mpr ⟨value, rfl, returns_bind.mpr ⟨_, (tellEvents_returns hP ..).mpr ⟨u', hu', rfl⟩, returns_bind.mpr ⟨key, ?_, ?_⟩⟩⟩⟩
                  · rw [setText_text, hk]; rfl
                  · rw [setText_text, setText_setText]
                    rfl
          · simp only [h2, if_false, ran_ok, returns_pure, Prod.mk.injEq]
            constructor
            · rintro ⟨u, h2, rfl, rfl, rfl⟩; exact ⟨⟨rfl, rfl⟩, u, h2, rfl⟩
            · rintro ⟨⟨rfl, rfl⟩, u, h2, rfl⟩; exact ⟨u, h2, rfl, rfl, rfl⟩
      · simp only [Bool.not_eq_true] at hsu
        simp only [hsu, Bool.false_eq_true, if_false, ran_ok, returns_pure, Prod.mk.injEq]
        constructor
        · rintro ⟨u, h2, rfl, rfl, rfl⟩; exact ⟨⟨rfl, rfl⟩, u, h2, rfl⟩
        · rintro ⟨⟨rfl, rfl⟩, u, h2, rfl⟩; exact ⟨u, h2, rfl, rfl, rfl⟩
  | PARSING_VALUE =>
    clear hplain
    unfold TextParser.processStep
    simp only [hs]
    rw [returns_bind]
    cases hf : (w.text n).findToken c [TextParser.kValueStop, 0#8] .value with
    | error e =>
      constructor
      · rintro ⟨⟨v', r⟩, h1, -⟩
        rw [findTokenN_silent hP, hf] at h1
        exact absurd h1 ran_error
      · intro h; exact absurd h ran_error
    | ok x =>
      obtain ⟨t, evs, r⟩ := x
      have key : ∀ Q : World × TextParser.FindTokenResult → Prop,
          (∃ a, (findTokenN P k w n c [TextParser.kValueStop, 0#8] .value).Returns a ∧ Q a) ↔
          ∃ u, w.callConsumers (evCalls evs) = .ok u ∧ Q (u.setText n t, r) := by
        intro Q
        constructor
        · rintro ⟨⟨v', r'⟩, h1, h2⟩
          rw [findTokenN_silent hP, hf, ran_ok] at h1
          obtain ⟨rfl, u, h3, rfl⟩ := h1
          exact ⟨u, h3, h2⟩
        · rintro ⟨u, h3, h2⟩
          exact ⟨_, (findTokenN_silent hP ..).mpr (by rw [hf, ran_ok]; exact ⟨rfl, u, h3, rfl⟩), h2⟩
      rw [key]
      simp only [bind, Except.bind, setText_text]
      by_cases hsu : r.success = true
      · simp only [hsu, if_true]
        cases hk : t.key.erase with
        | error e =>
          constructor
          · rintro ⟨u, -, h⟩
            obtain ⟨_, h, h'⟩ := returns_bind.mp h
            rw [tellEvents_returns hP] at h
            obtain ⟨u', -, rfl⟩ := h
            rw [setText_text] at h'
            obtain ⟨_, h, -⟩ := returns_bind.mp h'
            rw [returns_lift, hk] at h
            cases h
          · intro h; exact absurd h ran_error
        | ok key =>
          simp only
          cases hv : t.value.erase with
          | error e =>
            constructor
            · rintro ⟨u, -, h⟩
              obtain ⟨_, h, h'⟩ := returns_bind.mp h
              rw [tellEvents_returns hP] at h
              obtain ⟨u', -, rfl⟩ := h
              rw [setText_text] at h'
              obtain ⟨_, h, h'⟩ := returns_bind.mp h'
              obtain ⟨_, h, -⟩ := returns_bind.mp h'
              rw [returns_lift, hv] at h
              cases h
            · intro h; exact absurd h ran_error
          | ok value =>
            rw [ran_ok, Prod.mk.injEq, ran_append (t := t)]
            constructor
            · rintro ⟨u, hu, h⟩
              obtain ⟨_, h, h'⟩ := returns_bind.mp h
              rw [tellEvents_returns hP] at h
              obtain ⟨u', hu', rfl⟩ := h
              rw [setText_text] at h'
              obtain ⟨_, h, h'⟩ := returns_bind.mp h'
              rw [returns_lift, hk] at h
              cases h
              obtain ⟨_, h, h'⟩ := returns_bind.mp h'
              rw [returns_lift, hv] at h
              cases h
              rw [returns_pure, Prod.mk.injEq, Prod.mk.injEq, setText_setText, setText_setText] at h'
              obtain ⟨rfl, rfl, rfl⟩ := h'
              exact ⟨⟨rfl, rfl⟩, u, hu, _, calls_setText_ok.mpr ⟨u', hu', rfl⟩, by rw [setText_setText]⟩
            · rintro ⟨⟨rfl, rfl⟩, u, hu, u'', hu'', rfl⟩
              obtain ⟨u', hu', rfl⟩ := calls_setText_ok.mp hu''
              refine ⟨u, hu, returns_bind.mpr ⟨_, (tellEvents_returns hP ..).mpr ⟨u', hu', rfl⟩, returns_bind.mpr ⟨key, ?_, returns_bind.mpr ⟨value, ?_, ?_⟩⟩⟩⟩
              · rw [setText_text, hk]; rfl
              · rw [setText_text, returns_lift]; exact hv
              · rw [setText_text]; simp only [setText_setText]; rfl
      · simp only [Bool.not_eq_true] at hsu
        simp only [hsu, Bool.false_eq_true, if_false, ran_ok, returns_pure, Prod.mk.injEq]
        constructor
        · rintro ⟨u, h2, rfl, rfl, rfl⟩; exact ⟨⟨rfl, rfl⟩, u, h2, rfl⟩
        · rintro ⟨⟨rfl, rfl⟩, u, h2, rfl⟩; exact ⟨u, h2, rfl, rfl, rfl⟩

theorem processLoopN_silent (fuel : Nat) (w v : World) (n c c' : Nat) :
    (processLoopN P k fuel w n c).Returns (v, c') ↔ Ran w n (TextParser.processLoop fuel (w.text n) c) v c' := by
  induction fuel generalizing w c with
  | zero =>
    constructor
    · intro h; cases h
    · intro h; exact absurd h ran_error
  | succ fuel ih =>
    unfold processLoopN TextParser.processLoop
    by_cases hl : c < (w.text n).buffer.len
    · rw [if_pos hl, if_pos hl, returns_bind]
      cases hs : (w.text n).processStep c with
      | error e =>
        constructor
        · rintro ⟨⟨v', c1, b⟩, h1, -⟩
          rw [processStepN_silent hP, hs] at h1
          exact absurd h1 ran_error
        · intro h; exact absurd h ran_error
      | ok x =>
        obtain ⟨t, evs, c1, b⟩ := x
        have key : ∀ Q : World × Nat × Bool → Prop, (∃ a, (processStepN P k w n c).Returns a ∧ Q a) ↔
            ∃ u, w.callConsumers (evCalls evs) = .ok u ∧ Q (u.setText n t, c1, b) := by
          intro Q
          constructor
          · rintro ⟨⟨v', c2, b2⟩, h1, h2⟩
            rw [processStepN_silent hP, hs, ran_ok] at h1
            obtain ⟨h4, u, h3, rfl⟩ := h1
            cases h4
            exact ⟨u, h3, h2⟩
          · rintro ⟨u, h3, h2⟩
            exact ⟨_, (processStepN_silent hP ..).mpr (by rw [hs, ran_ok]; exact ⟨rfl, u, h3, rfl⟩), h2⟩
        rw [key]
        simp only [bind, Except.bind]
        cases b with
        | true =>
          simp only [if_true, returns_pure, Prod.mk.injEq, ran_ok]
          constructor
          · rintro ⟨u, h2, rfl, rfl⟩; exact ⟨rfl, u, h2, rfl⟩
          · rintro ⟨rfl, u, h2, rfl⟩; exact ⟨u, h2, rfl, rfl⟩
        | false =>
          simp only [Bool.false_eq_true, if_false]
          cases hr : TextParser.processLoop fuel t c1 with
          | error e =>
            constructor
            · rintro ⟨u, h2, h3⟩
              rw [ih, setText_text, hr] at h3
              exact absurd h3 ran_error
            · intro h; exact absurd h ran_error
          | ok y =>
            obtain ⟨t2, evs2, c2⟩ := y
            simp only
            rw [ran_ok, ran_append (t := t)]
            constructor
            · rintro ⟨u, h2, h3⟩
              rw [ih, setText_text, hr, ran_ok] at h3
              exact ⟨h3.1, u, h2, h3.2⟩
            · rintro ⟨h1, u, h2, h3⟩
              exact ⟨u, h2, (ih ..).mpr (by rw [setText_text, hr, ran_ok]; exact ⟨h1, h3⟩)⟩
    · rw [if_neg hl, if_neg hl, returns_pure, ran_ok, Prod.mk.injEq]
      constructor
      · rintro ⟨rfl, rfl⟩
        exact ⟨rfl, w, rfl, (setText_self w n).symm⟩
      · rintro ⟨rfl, u, h, rfl⟩
        cases h
        exact ⟨(setText_self w n).symm, rfl⟩

theorem reportParseErrorN_silent (w v : World) (n : Nat) : (reportParseErrorN P k w n).Returns v ↔ RanText w n (w.text n).reportParseError v := by
  unfold reportParseErrorN
  rw [returns_bind]
  constructor
  · rintro ⟨⟨t, evs⟩, h1, h2⟩
    obtain ⟨u, h5, rfl⟩ := (tellEvents_returns hP _ _ _ _ _).mp h2
    exact ⟨t, evs, u, returns_lift.mp h1, h5, rfl⟩
  · rintro ⟨t, evs, u, h1, h2, rfl⟩
    exact ⟨_, returns_lift.mpr h1, (tellEvents_returns hP _ _ _ _ _).mpr ⟨u, h2, rfl⟩⟩

theorem addLoopN_silent (fuel : Nat) (w v : World) (n : Nat) (input : BufferManager) (i : Nat) :
    (addLoopN P k fuel w n input i).Returns v ↔ RanText w n (TextParser.addLoop fuel (w.text n) input i) v := by
  induction fuel generalizing w i with
  | zero =>
    constructor
    · intro h; cases h
    · intro h; exact absurd h ranText_error
  | succ fuel ih =>
    unfold addLoopN TextParser.addLoop
    by_cases hl : i < input.len
    · rw [if_pos hl, if_pos hl]
      by_cases hf : ((w.text n).buffer.full || decide ((w.text n).state = .ERROR)) = true
      · rw [if_pos hf, if_pos hf]
        exact reportParseErrorN_silent hP w v n
      · rw [if_neg hf, if_neg hf, returns_bind]
        cases hb : (w.text n).buffer.push_back (input.subBufferManagerFrom i) with
        | error e =>
          constructor
          · rintro ⟨_, h, -⟩; cases h
          · intro h; exact absurd h ranText_error
        | ok x =>
          obtain ⟨buffer, m⟩ := x
          have e1 : ∀ Q : BufferManager × Nat → Prop, (∃ a, (Run.lift (.ok (buffer, m))).Returns a ∧ Q a) ↔ Q (buffer, m) := by
            intro Q
            constructor
            · rintro ⟨a, h1, h2⟩; cases h1; exact h2
            · intro h; exact ⟨_, rfl, h⟩
          rw [e1]
          simp only [bind, Except.bind]
          show (processLoopN P k TextParser.loopFuel (w.setText n _) n 0 >>= _).Returns v ↔ _
          rw [returns_bind]
          unfold TextParser.processBuffer
          cases hs : TextParser.processLoop TextParser.loopFuel { w.text n with buffer := buffer } 0 with
          | error e =>
            constructor
            · rintro ⟨⟨v', c1⟩, h1, -⟩
              rw [processLoopN_silent hP, setText_text, hs] at h1
              exact absurd h1 ran_error
            · intro h; exact absurd h ranText_error
          | ok x =>
            obtain ⟨t, evs, c1⟩ := x
            have key : ∀ Q : World × Nat → Prop, (∃ a, (processLoopN P k TextParser.loopFuel
                (w.setText n { w.text n with buffer := buffer }) n 0).Returns a ∧ Q a) ↔
                ∃ u, w.callConsumers (evCalls evs) = .ok u ∧ Q (u.setText n t, c1) := by
              intro Q
              constructor
              · rintro ⟨⟨v', c2⟩, h1, h2⟩
                rw [processLoopN_silent hP, setText_text, hs, ran_ok] at h1
                obtain ⟨h4, u, h3, rfl⟩ := h1
                obtain ⟨u', h5, rfl⟩ := calls_setText_ok.mp h3
                rw [setText_setText] at h2
                cases h4
                exact ⟨u', h5, h2⟩
              · rintro ⟨u, h3, h2⟩
                refine ⟨_, (processLoopN_silent hP ..).mpr (by
                  rw [setText_text, hs, ran_ok]; exact ⟨rfl, _, calls_setText_ok.mpr ⟨u, h3, rfl⟩, rfl⟩), ?_⟩
                rw [setText_setText]
                exact h2
            rw [key]
            simp only [setText_text]
            cases hp : t.buffer.pop_front c1 with
            | error e =>
              constructor
              · rintro ⟨u, -, h⟩; obtain ⟨_, h, -⟩ := returns_bind.mp h; cases h
              · intro h; exact absurd h ranText_error
            | ok b2 =>
              simp only [setText_setText]
              cases hr : TextParser.addLoop fuel { t with buffer := b2 } input (u8 (i + m)) with
              | error e =>
                constructor
                · rintro ⟨u, h2, h3⟩
                  obtain ⟨_, h, h3⟩ := returns_bind.mp h3
                  cases h
                  rw [ih, setText_text, hr] at h3
                  exact absurd h3 ranText_error
                · intro h; exact absurd h ranText_error
              | ok y =>
                obtain ⟨t2, evs2⟩ := y
                rw [ranText_ok, ran_append (t := { t with buffer := b2 })]
                constructor
                · rintro ⟨u, h2, h3⟩
                  obtain ⟨_, h, h3⟩ := returns_bind.mp h3
                  cases h
                  rw [ih, setText_text, hr, ranText_ok] at h3
                  exact ⟨u, h2, h3⟩
                · rintro ⟨u, h2, h3⟩
                  exact ⟨u, h2, returns_bind.mpr ⟨b2, rfl, (ih ..).mpr (by rw [setText_text, hr, ranText_ok]; exact h3)⟩⟩
    · rw [if_neg hl, if_neg hl, returns_pure, ranText_ok]
      have e : w.setText n (w.text n) = w := setText_self w n
      constructor
      · rintro rfl
        exact ⟨w, rfl, e.symm⟩
      · rintro ⟨u, h, rfl⟩
        cases h
        exact e.symm

theorem addTextN_silent (w v : World) (n : Nat) (input : BufferManager) :
    (addTextN P k w n input).Returns v ↔ RanText w n ((w.text n).addText input) v := by
  unfold addTextN TextParser.addText
  split
  · exact reportParseErrorN_silent hP w v n
  · exact addLoopN_silent hP _ w v n input 0

end

/-! ### Callbacks that run after everything else -/

theorem notify_one (p : StreamParser) (a : ConsumerAction) : (p.notify a).length ≤ 1 := by
  unfold StreamParser.notify
  cases p.consumer with
  | none => exact Nat.zero_le _
  | some c => exact Nat.le_refl _

/-- The call is one on the application in one state if it is in the other: whose consumer an object is does not change. -/
theorem callConsumer_reaches {w v : World} {c : ConsumerCall} (h : w.callConsumer c = .ok v) : v.reachesApp = w.reachesApp := by
  have key : ∀ m, (v.consumers m = .app) ↔ (w.consumers m = .app) := by
    intro m
    rcases World.callConsumer_cases h with ⟨l, s, k, x, es, h1, h2, h3, rfl⟩ | ⟨l, es, ends, h1, h2, h3, rfl⟩ | ⟨l, ends, h1, h2, h3, rfl⟩ |
      ⟨l, s, k, x, l', h1, h2, h3, rfl⟩ | ⟨l, l', ends, h1, h2, h3, rfl⟩ | ⟨l, l', ends, h1, h2, h3, rfl⟩ | ⟨h1, rfl⟩
    · exact Iff.rfl
    · exact Iff.rfl
    · exact Iff.rfl
    · simp only [setConsumer, logAll]
      split
      · next e => rw [e, h1]; exact ⟨fun h => (by cases h), fun h => (by cases h)⟩
      · exact Iff.rfl
    · simp only [setConsumer, logAll]
      split
      · next e => rw [e, h1]; exact ⟨fun h => (by cases h), fun h => (by cases h)⟩
      · exact Iff.rfl
    · simp only [setConsumer, logAll]
      split
      · next e => rw [e, h1]; exact ⟨fun h => (by cases h), fun h => (by cases h)⟩
      · exact Iff.rfl
    · exact Iff.rfl
  funext e
  cases e with
  | consumer c =>
    show (v.consumers c.consumer == .app) = (w.consumers c.consumer == .app)
    have := key c.consumer
    by_cases hw : w.consumers c.consumer = .app
    · rw [this.mpr hw, hw]
    · have hv : v.consumers c.consumer ≠ .app := fun h => hw (this.mp h)
      rw [beq_eq_false_iff_ne.mpr hw, beq_eq_false_iff_ne.mpr hv]
  | call c => rfl
  | streamEnd _ _ _ _ => rfl

theorem callConsumers_reaches {w v : World} {cs : List ConsumerCall} (h : w.callConsumers cs = .ok v) : v.reachesApp = w.reachesApp := by
  unfold callConsumers at h
  induction cs generalizing w with
  | nil => cases h; rfl
  | cons c cs ih =>
    rw [List.foldlM_cons] at h
    obtain ⟨u, h1, h2⟩ := bind_ok h
    rw [ih h2, callConsumer_reaches h1]

/-- The callbacks for what was logged between `w` and `u` run, starting in `u`, and lead to `v`. -/
def Later (P : Program) (k : World → Op → Run World) (w u v : World) : Prop :=
  (((u.log.drop w.log.length).filter w.reachesApp).foldlM (react P k) u).Returns v

theorem later_silent {P : Program} {k : World → Op → Run World} (hP : P.Silent) {w u v : World} : Later P k w u v ↔ u = v := by
  unfold Later
  rw [foldlM_pure _ (react_silent hP), returns_pure]

section
variable {P : Program} {k : World → Op → Run World} (hP : P.Reserved)
include hP

omit hP in
theorem tellConsumers_one (w v : World) (c : ConsumerCall) :
    (tellConsumers P k w [c]).Returns v ↔ ∃ u, w.callConsumers [c] = .ok u ∧ Later P k w u v := by
  have e1 : tellConsumers P k w [c] = callConsumerN P k w c >>= pure := rfl
  have e2 : w.callConsumers [c] = w.callConsumer c >>= .ok := rfl
  rw [e1, bind_pure, e2]
  unfold callConsumerN
  rw [returns_bind]
  constructor
  · rintro ⟨u, h1, h2⟩
    rw [returns_lift] at h1
    exact ⟨u, by rw [h1]; rfl, h2⟩
  · rintro ⟨u, h1, h2⟩
    obtain ⟨u', h3, h4⟩ := bind_ok h1
    cases h4
    exact ⟨u, returns_lift.mpr h3, h2⟩

omit hP in
theorem tellConsumers_last (w v : World) (cs : List ConsumerCall) (hl : cs.length ≤ 1) :
    (tellConsumers P k w cs).Returns v ↔ ∃ u, w.callConsumers cs = .ok u ∧ Later P k w u v := by
  match cs, hl with
  | [], _ =>
    have : Later P k w w v ↔ w = v := by
      unfold Later
      rw [List.drop_length]
      exact returns_pure
    constructor
    · intro h; exact ⟨w, rfl, this.mpr (returns_pure.mp h)⟩
    · rintro ⟨u, h1, h2⟩; cases h1; exact returns_pure.mpr (this.mp h2)
  | [c], _ => exact tellConsumers_one w v c

omit hP in
theorem callConsumers_grows {w v : World} {cs : List ConsumerCall} (h : w.callConsumers cs = .ok v) : ∃ l, v.log = w.log ++ l := by
  unfold callConsumers at h
  induction cs generalizing w with
  | nil => cases h; exact ⟨[], (List.append_nil _).symm⟩
  | cons c cs ih =>
    rw [List.foldlM_cons] at h
    obtain ⟨u, h1, h2⟩ := bind_ok h
    obtain ⟨l, h3⟩ := ih h2
    obtain ⟨-, -, -, -, l', h4, -⟩ := callConsumer_log w u _ h1
    exact ⟨[.consumer c] ++ l' ++ l, by rw [h3, h4]; simp only [List.append_assoc]⟩

theorem callConsumers_entries {w u : World} {evs : List ParseEvent} (h : w.callConsumers (evCalls evs) = .ok u) :
    ∃ l, u.log = w.log ++ l ∧ ∀ (p : LogEntry → Bool) (l' : List LogEntry) (x : World),
      ((l ++ l').filter p).foldlM (react P k) x = (l'.filter p).foldlM (react P k) x := by
  induction evs generalizing w with
  | nil => cases h; exact ⟨[], (List.append_nil _).symm, fun _ _ _ => rfl⟩
  | cons e evs ih =>
    unfold evCalls callConsumers at h
    rw [List.map_cons, List.foldlM_cons] at h
    obtain ⟨w1, h1, h2⟩ := bind_ok h
    obtain ⟨l, h3, h4⟩ := ih h2
    refine ⟨.consumer (StreamParser.ofParseEvent e) :: l, ?_, ?_⟩
    · rw [h3, show w1.log = w.log ++ [.consumer (StreamParser.ofParseEvent e)] from consume_log h1, List.append_assoc]; rfl
    · intro p l' x
      rw [List.cons_append]
      by_cases hp : p (.consumer (StreamParser.ofParseEvent e)) = true
      · rw [List.filter_cons_of_pos hp, List.foldlM_cons]
        have : react P k x (.consumer (StreamParser.ofParseEvent e)) = pure x := by
          unfold react
          rw [show P x (.consumer (StreamParser.ofParseEvent e)) = [] from hP x _ _ _ _]
          rfl
        rw [this, pure_bind]
        exact h4 p l' x
      · rw [List.filter_cons_of_neg hp]
        exact h4 p l' x

/-- Entries do not matter for what happens later. -/
theorem later_events {w u u' x v : World} {evs : List ParseEvent} {cs : List ConsumerCall} (h : w.callConsumers (evCalls evs) = .ok u)
    (hl : u'.log = u.log) (hc : u'.consumers = u.consumers) (hx : u'.callConsumers cs = .ok x) : Later P k w x v ↔ Later P k u' x v := by
  obtain ⟨l, h1, h2⟩ := callConsumers_entries (k := k) hP h
  obtain ⟨l', h3⟩ := callConsumers_grows hx
  have hr : u'.reachesApp = w.reachesApp := by
    rw [← callConsumers_reaches h]
    funext e
    cases e <;> simp only [reachesApp, hc]
  unfold Later
  rw [hr, h3, List.drop_left' rfl, hl, h1, List.append_assoc, List.drop_left' rfl, h2]

theorem parserDataN_reserved (w v : World) (n : Nat) (d : Data) (hs : (w.parsers n).state = .WAITING_DATA_PACKET) (hd : d.dlc = 8#8) :
    (parserDataN P k w n d).Returns v ↔ ∃ u, w.parserAdd n d = .ok u ∧ Later P k w u v := by
  unfold parserDataN parserAdd StreamParser.addMessage
  simp only [hs, StreamParser.addData, if_neg (not_not.mpr hd)]
  cases hc : (w.parsers n).getCrc with
  | error e =>
    constructor
    · intro h; obtain ⟨_, h, -⟩ := returns_bind.mp h; cases h
    · rintro ⟨u, h, -⟩; cases h
  | ok c =>
    generalize hp1 : ({ w.parsers n with
      remaining := (w.parsers n).remaining - d.dlc.zeroExtend 32,
      crc := some ((d.bytes.take d.dlc.toNat).foldl Crc.updateCrc c) } : StreamParser) = p1
    have ht : (w.setParser n p1).text n = (w.parsers n).text := by
      unfold text
      rw [setParser_get, ← hp1]
    simp only [hs] at hp1
    rw [show (Run.lift (.ok c) : Run Crc) = pure c from rfl, pure_bind, hp1, returns_bind]
    simp only [bind, Except.bind]
    cases ha : (w.parsers n).text.addText { mem := d.bytes, cap := d.dlc.toNat, len := CanDataMaxLength } with
    | error e =>
      constructor
      · rintro ⟨u, h1, -⟩
        rw [addTextN_silent hP, ht, ha] at h1
        exact absurd h1 ranText_error
      · rintro ⟨u, h, -⟩; cases h
    | ok x =>
      obtain ⟨t, evs⟩ := x
      have key : ∀ Q : World → Prop, (∃ a, (addTextN P k (w.setParser n p1) n
          { mem := d.bytes, cap := d.dlc.toNat, len := CanDataMaxLength }).Returns a ∧ Q a) ↔
          ∃ u, w.callConsumers (evCalls evs) = .ok u ∧ Q (u.setParser n { p1 with text := t }) := by
        intro Q
        constructor
        · rintro ⟨a, h1, h2⟩
          rw [addTextN_silent hP, ht, ha, ranText_ok] at h1
          obtain ⟨u, h3, rfl⟩ := h1
          rw [callConsumers_setParser] at h3
          cases hu : w.callConsumers (evCalls evs) with
          | error e => rw [hu] at h3; cases h3
          | ok u' =>
            rw [hu] at h3
            cases h3
            unfold setText at h2
            rw [setParser_get, setParser_setParser] at h2
            exact ⟨u', rfl, h2⟩
        · rintro ⟨u, h3, h2⟩
          refine ⟨_, (addTextN_silent hP ..).mpr (by
            rw [ht, ha, ranText_ok]; exact ⟨_, by rw [callConsumers_setParser, h3]; rfl, rfl⟩), ?_⟩
          unfold setText
          rw [setParser_get, setParser_setParser]
          exact h2
      rw [key]
      have hrem : ∀ u : World, ((u.setParser n { p1 with text := t }).parsers n) = { p1 with text := t } := fun u => setParser_get ..
      have hcrc : ∀ t, ({ p1 with text := t } : StreamParser).getCrc = .ok ((d.bytes.take d.dlc.toNat).foldl Crc.updateCrc c) := by
        intro t; rw [← hp1]; rfl
      have tail : ∀ (q : StreamParser) (cs : List ConsumerCall), cs.length ≤ 1 →
          ((∃ u, w.callConsumers (evCalls evs) = .ok u ∧ (tellConsumers P k (u.setParser n q) cs).Returns v) ↔
          ∃ u, (w.setParser n q).callConsumers (evCalls evs ++ cs) = .ok u ∧ Later P k w u v) := by
        intro q cs hl
        rw [callConsumers_append, callConsumers_setParser]
        cases hu : w.callConsumers (evCalls evs) with
        | error e =>
          constructor
          · rintro ⟨u, h, -⟩; cases h
          · rintro ⟨u, h, -⟩; cases h
        | ok u =>
          have := tellConsumers_last (P := P) (k := k) (u.setParser n q) v cs hl
          constructor
          · rintro ⟨u', h1, h2⟩
            cases h1
            obtain ⟨x, hx, hv⟩ := this.mp h2
            exact ⟨x, hx, (later_events (u' := u.setParser n q) hP hu rfl rfl hx).mpr hv⟩
          · rintro ⟨x, hx, hv⟩
            exact ⟨u, rfl, this.mpr ⟨x, hx, (later_events (u' := u.setParser n q) hP hu rfl rfl hx).mp hv⟩⟩
      simp only [hrem, hcrc, setParser_setParser, setParser_get]
      have hb : ∀ {β : Type} (x : Crc) (f : Crc → Run β), ExceptT.bind (Run.lift (.ok x)) f = f x := fun x f => rfl
      simp only [hb]
      have hremv : (w.parsers n).remaining - d.dlc.zeroExtend 32 = p1.remaining := by rw [← hp1]
      rw [hremv]
      by_cases hz : p1.remaining = 0#32
      · simp only [hz, if_true]
        cases hval : ((d.bytes.take d.dlc.toNat).foldl Crc.updateCrc c).isCrcValid with
        | true =>
          simp only [if_true]
          have := tail { p1 with text := t, state := .STREAM_DONE } (({ p1 with text := t, state := .STREAM_DONE } : StreamParser).notify .complete) (notify_one _ _)
          rw [← hp1] at this ⊢
          rw [← hremv] at hz
          simp only [hz] at this ⊢
          exact this
        | false =>
          simp only [Bool.false_eq_true, if_false]
          have := tail { p1 with text := t, state := .IDLE } (({ p1 with text := t, state := .IDLE } : StreamParser).notify .aborted) (notify_one _ _)
          rw [← hp1] at this ⊢
          rw [← hremv] at hz
          simp only [hz] at this ⊢
          exact this
      · simp only [hz, if_false]
        have := tail { p1 with text := t } [] (Nat.zero_le _)
        rw [List.append_nil] at this
        rw [← hp1] at this ⊢
        exact this

end

section
variable {P : Program} {k : World → Op → Run World} (hP : P.Silent)
include hP

theorem parserResetN_silent (w v : World) (n : Nat) : (parserResetN P k w n).Returns v ↔ w.parserReset n = .ok v := by
  rw [parserReset_eq]
  unfold parserResetN
  rw [tellConsumers_silent hP, returns_bind]
  constructor
  · rintro ⟨u, h1, h2⟩
    rw [returns_lift] at h1
    obtain ⟨p, h3, h4⟩ := returns_bind.mp h2
    rw [returns_lift, (callConsumers_quiet _ _ _ h1).2] at h3
    exact ⟨u, p, h1, h3, (returns_pure.mp h4).symm⟩
  · rintro ⟨u, p, h1, h3, rfl⟩
    exact ⟨u, returns_lift.mpr h1, returns_bind.mpr ⟨p, by rw [returns_lift, (callConsumers_quiet _ _ _ h1).2]; exact h3, rfl⟩⟩

theorem parserAddN_silent (w v : World) (n : Nat) (d : Data) : (parserAddN P k w n d).Returns v ↔ w.parserAdd n d = .ok v := by
  unfold parserAddN
  by_cases hr : resets (w.parsers n) d = true
  · rw [if_pos hr, parserAdd_resets w n d hr]
    exact parserResetN_silent hP w v n
  · rw [if_neg hr]
    by_cases hs : (w.parsers n).state = .WAITING_DATA_PACKET
    · rw [if_pos hs]
      rw [parserDataN_reserved hP.reserved w v n d hs ?_]
      · simp only [later_silent hP, exists_eq_right]
      unfold resets at hr
      rw [hs] at hr
      simpa using hr
    · rw [if_neg hs]
      unfold parserAdd
      simp only [tellConsumers_silent hP]
      rw [show (Run.lift ((w.parsers n).addMessage d) >>= fun x => Run.lift ((w.setParser n x.1).callConsumers x.2)) =
        Run.lift ((w.parsers n).addMessage d >>= fun x => (w.setParser n x.1).callConsumers x.2) from lift_bind _ _]
      exact returns_lift

theorem finishN_silent (w v : World) : (finishN P k w).Returns v ↔ w.step .finish = .ok v := by
  unfold finishN
  cases hn : w.station.callbacks.configData with
  | none =>
    rw [step_finish_none w hn, returns_pure]
    exact ⟨fun h => by rw [h], fun h => by injection h⟩
  | some n =>
    rw [step_finish_some w n hn]
    simp only
    rw [returns_bind]
    constructor
    · rintro ⟨u, h1, h2⟩
      rw [parserResetN_silent hP] at h1
      rw [returns_pure] at h2
      rw [h1, ← h2, ← register_free w u n h1]
      rfl
    · intro h
      cases hu : w.parserReset n with
      | error e => rw [hu] at h; cases h
      | ok u =>
        rw [hu] at h
        cases h
        exact ⟨u, (parserResetN_silent hP ..).mpr hu, by rw [returns_pure, ← register_free w u n hu]⟩

/-- The frames in the calls go to the transmit callback of the station. -/
def Addressed (s : Station) (cs : List Call) : Prop := ∀ cb f, Call.tx cb f ∈ cs → s.callbacks.tx = some cb

omit hP in
theorem runCall_station (w v : World) (c : Call) (h : w.runCall c = .ok v) : v.station = w.station := by
  cases c with
  | cfgStart n => cases h; rfl
  | cfgAdd n d => exact (parserAdd_quiet w v n d h).1
  | cfgReset n => exact (parserReset_quiet w v n h).1
  | _ => cases h; rfl

theorem runCallN_silent (w v : World) (c : Call) (h : Addressed w.station [c]) : (runCallN P k w c).Returns v ↔ w.runCall c = .ok v := by
  cases c with
  | cfgStart n => exact returns_pure.trans ⟨fun h => by rw [← h]; rfl, fun h => by cases h; rfl⟩
  | cfgAdd n d => exact parserAddN_silent hP w v n d
  | cfgReset n => exact parserResetN_silent hP w v n
  | tx cb f =>
    have ht := h cb f (List.mem_singleton.mpr rfl)
    unfold runCallN
    simp only [ht, tell_silent hP]
    exact returns_pure.trans ⟨fun h => by rw [← h]; rfl, fun h => by cases h; rfl⟩
  | _ =>
    unfold runCallN
    simp only [tell_silent hP]
    exact returns_pure.trans ⟨fun h => by rw [← h]; rfl, fun h => by cases h; rfl⟩

theorem runCalls_silent (cs : List Call) (w v : World) (h : Addressed w.station cs) :
    (cs.foldlM (runCallN P k) w).Returns v ↔ w.runCalls cs = .ok v := by
  induction cs generalizing w with
  | nil => exact returns_pure.trans ⟨fun h => by rw [← h]; rfl, fun h => by cases h; rfl⟩
  | cons c cs ih =>
    have h1 : Addressed w.station [c] := fun cb f hm => h cb f (by rw [List.mem_singleton.mp hm]; exact List.mem_cons_self ..)
    unfold runCalls
    rw [List.foldlM_cons, List.foldlM_cons, returns_bind]
    constructor
    · rintro ⟨u, h2, h3⟩
      have h2 := (runCallN_silent hP w u c h1).mp h2
      rw [h2]
      exact (ih u (by rw [runCall_station w u c h2]; exact fun cb f hm => h cb f (List.mem_cons_of_mem _ hm))).mp h3
    · intro h4
      obtain ⟨u, h2, h3⟩ := bind_ok h4
      exact ⟨u, (runCallN_silent hP w u c h1).mpr h2,
        (ih u (by rw [runCall_station w u c h2]; exact fun cb f hm => h cb f (List.mem_cons_of_mem _ hm))).mpr h3⟩

theorem runCallsN_silent (w v : World) (r : Res (List Call)) (h : ∀ cs, r = .ok cs → Addressed w.station cs) :
    (runCallsN P k w r).Returns v ↔ w.stationCalls r = .ok v := by
  unfold runCallsN stationCalls
  cases r with
  | error e =>
    constructor
    · intro h; obtain ⟨_, h, -⟩ := returns_bind.mp h; cases h
    · intro h; cases h
  | ok cs => exact runCalls_silent hP cs w v (h cs rfl)

end

end World

end RR32
