import Verif.Proofs.SpeakingGrows
import Verif.Proofs.NestedStep
import Verif.Proofs.Output
import Verif.Props.Speaking

/-! # The console with callbacks that call nothing -/

set_option autoImplicit false

namespace RR32

open World

namespace Desk

/-- The calls on consumers in a log. -/
def callsIn (l : List LogEntry) : List ConsumerCall := l.filterMap fun | .consumer c => some c | _ => none

theorem callsIn_append (a b : List LogEntry) : callsIn (a ++ b) = callsIn a ++ callsIn b := List.filterMap_append ..

/-- What calls on consumers depend on is the same. -/
def Alike (a b : World) : Prop := a.pf = b.pf ∧ a.consumers = b.consumers ∧ a.engines = b.engines

theorem alike_refl (a : World) : Alike a a := ⟨rfl, rfl, rfl⟩
theorem alike_symm {a b : World} (h : Alike a b) : Alike b a := ⟨h.1.symm, h.2.1.symm, h.2.2.symm⟩
theorem alike_trans {a b c : World} (h : Alike a b) (h' : Alike b c) : Alike a c := ⟨h.1.trans h'.1, h.2.1.trans h'.2.1, h.2.2.trans h'.2.2⟩

theorem callConsumerO_alike {g : LogConfig} {a b a' : World} {c : ConsumerCall} {t : List Byte} (hab : Alike a b)
    (h : callConsumerO g a c = .ok (a', t)) : ∃ b', callConsumerO g b c = .ok (b', t) ∧ Alike a' b' := by
  obtain ⟨t', h1, h⟩ := bind_ok h
  obtain ⟨v, h2, h⟩ := bind_ok h
  cases h
  have e1 : b.consumerText g c = .ok t := by
    rw [← h1]
    unfold consumerText
    rw [hab.2.1, hab.2.2]
  have fin : ∀ b', b.callConsumer c = .ok b' → Alike a' b' → ∃ b', callConsumerO g b c = .ok (b', t) ∧ Alike a' b' := by
    intro b' h3 h4
    refine ⟨b', ?_, h4⟩
    unfold callConsumerO
    rw [e1]
    show (b.callConsumer c).bind _ = _
    rw [h3]
    rfl
  obtain ⟨p1, p2, p3⟩ := hab
  rcases World.callConsumer_cases h2 with ⟨l, s, k, x, es, g1, g2, g3, rfl⟩ | ⟨l, es, ends, g1, g2, g3, rfl⟩ | ⟨l, ends, g1, g2, g3, rfl⟩ |
    ⟨l, s, k, x, l', g1, g2, g3, rfl⟩ | ⟨l, l', ends, g1, g2, g3, rfl⟩ | ⟨l, l', ends, g1, g2, g3, rfl⟩ | ⟨g1, rfl⟩
  · refine fin ({ b.logAll [.consumer c] with engines := es }) ?_ ⟨p1, p2, rfl⟩
    unfold World.callConsumer; simp only [logAll, ← p2, g1, g2, ← p1, ← p3, g3]; rfl
  · refine fin (World.logAll { b.logAll [.consumer c] with engines := es } (endLog c.consumer .engine ends)) ?_ (⟨p1, p2, rfl⟩ : _ ∧ _ ∧ _)
    unfold World.callConsumer; simp only [logAll, ← p2, g1, g2, ← p1, ← p3, g3]; rfl
  · refine fin ((b.logAll [.consumer c]).logAll (endLog c.consumer (fun _ => .nothing) ends)) ?_ ⟨p1, p2, p3⟩
    unfold World.callConsumer; simp only [logAll, ← p2, g1, g2, ← p1, ← p3, g3]; rfl
  · refine fin ((b.logAll [.consumer c]).setConsumer c.consumer (.list l')) ?_ ⟨p1, by simp only [setConsumer, logAll, p2], p3⟩
    unfold World.callConsumer; simp only [logAll, ← p2, g1, g2, ← p1, ← p3, g3]; rfl
  · refine fin (((b.logAll [.consumer c]).setConsumer c.consumer (.list l')).logAll (endLog c.consumer .list ends)) ?_
      ⟨p1, by simp only [setConsumer, logAll, p2], p3⟩
    unfold World.callConsumer; simp only [logAll, ← p2, g1, g2, ← p1, ← p3, g3]; rfl
  · refine fin (((b.logAll [.consumer c]).setConsumer c.consumer (.list l')).logAll (endLog c.consumer .list ends)) ?_
      ⟨p1, by simp only [setConsumer, logAll, p2], p3⟩
    unfold World.callConsumer; simp only [logAll, ← p2, g1, g2, ← p1, ← p3, g3]; rfl
  · refine fin (b.logAll [.consumer c]) ?_ ⟨p1, p2, p3⟩
    unfold World.callConsumer; simp only [logAll, ← p2, g1]

theorem inTurn_alike {g : LogConfig} {cs : List ConsumerCall} {a b a' : World} {t : List Byte} (hab : Alike a b)
    (h : inTurn (callConsumerO g) a cs = .ok (a', t)) : ∃ b', inTurn (callConsumerO g) b cs = .ok (b', t) ∧ Alike a' b' := by
  induction cs generalizing a b t with
  | nil => cases h; exact ⟨b, rfl, hab⟩
  | cons c cs ih =>
    rw [inTurn] at h
    obtain ⟨⟨u, t1⟩, h1, h⟩ := bind_ok h
    obtain ⟨⟨v, t2⟩, h2, h⟩ := bind_ok h
    cases h
    obtain ⟨u', g1, e1⟩ := callConsumerO_alike hab h1
    obtain ⟨v', g2, e2⟩ := ih e1 h2
    refine ⟨v', ?_, e2⟩
    rw [inTurn, g1]
    simp only [bind, Except.bind]
    rw [g2]

/-- Between two moments, the calls on consumers that the log shows were made, all of the kind `K`, and nothing was printed but what these
print. -/
def Said (g : LogConfig) (K : ConsumerCall → Prop) (h h' : Desk) : Prop :=
  ∃ new w u t, h'.w.log = h.w.log ++ new ∧ (∀ c ∈ callsIn new, K c) ∧ Alike h.w w ∧
    inTurn (callConsumerO g) w (callsIn new) = .ok (u, t) ∧ Alike u h'.w ∧ h'.out = h.out ++ t

theorem inTurn_join {f : World → ConsumerCall → Res (World × List Byte)} {w u v : World} {a b : List ConsumerCall} {s t : List Byte}
    (h1 : inTurn f w a = .ok (u, s)) (h2 : inTurn f u b = .ok (v, t)) : inTurn f w (a ++ b) = .ok (v, s ++ t) := by
  induction a generalizing w s with
  | nil => cases h1; exact h2
  | cons c a ih =>
    rw [inTurn] at h1
    obtain ⟨⟨x, t1⟩, g1, h1⟩ := bind_ok h1
    obtain ⟨⟨y, t2⟩, g2, h1⟩ := bind_ok h1
    cases h1
    rw [List.cons_append, inTurn, g1]
    simp only [bind, Except.bind]
    rw [ih g2]
    simp [List.append_assoc]

section
variable {g : LogConfig} {K : ConsumerCall → Prop}

theorem said_put {h : Desk} {w : World} {new : List LogEntry} (h1 : Alike h.w w) (h2 : w.log = h.w.log ++ new) (h3 : callsIn new = []) :
    Said g K h (h.put w) := by
  refine ⟨new, h.w, h.w, [], h2, ?_, alike_refl _, ?_, h1, (List.append_nil _).symm⟩
  · rw [h3]; intro c hc; cases hc
  · rw [h3]; rfl

theorem said_refl (h : Desk) : Said g K h h := said_put (w := h.w) (new := []) (alike_refl _) (List.append_nil _).symm rfl

theorem said_trans {a b c : Desk} (h1 : Said g K a b) (h2 : Said g K b c) : Said g K a c := by
  obtain ⟨n1, w1, u1, t1, p1, p2, p0, p3, p4, p5⟩ := h1
  obtain ⟨n2, w2, u2, t2, q1, q2, q0, q3, q4, q5⟩ := h2
  obtain ⟨u3, r1, r2⟩ := inTurn_alike (alike_symm (alike_trans p4 q0)) q3
  refine ⟨n1 ++ n2, w1, u3, t1 ++ t2, by rw [q1, p1, List.append_assoc], ?_, p0, ?_, alike_trans (alike_symm r2) q4, by rw [q5, p5, List.append_assoc]⟩
  · rw [callsIn_append]
    intro c hc
    rcases List.mem_append.mp hc with hc | hc
    · exact p2 c hc
    · exact q2 c hc
  · rw [callsIn_append]
    exact inTurn_join p3 r1

theorem said_mono {K' : ConsumerCall → Prop} (hK : ∀ c, K c → K' c) {a b : Desk} (h : Said g K a b) : Said g K' a b := by
  obtain ⟨n1, w1, u1, t1, p1, p2, p3⟩ := h
  exact ⟨n1, w1, u1, t1, p1, fun c hc => hK c (p2 c hc), p3⟩

theorem said_silent {a b : Desk} (h : Said g (fun _ => False) a b) : b.out = a.out := by
  obtain ⟨n1, w1, u1, t1, p1, p2, p0, p3, p4, p5⟩ := h
  have : callsIn n1 = [] := by
    cases hc : callsIn n1 with
    | nil => rfl
    | cons c cs => exact (p2 c (hc ▸ List.mem_cons_self ..)).elim
  rw [this] at p3
  cases p3
  rw [p5, List.append_nil]

/-- The text is that of the calls. -/
theorem said_same {K' : ConsumerCall → Prop} {a b a' b' : Desk} (hw : Alike a.w a'.w) (hn : b.w.log.drop a.w.log.length = b'.w.log.drop a'.w.log.length)
    (h : Said g K a b) (h' : Said g K' a' b') : ∃ t, b.out = a.out ++ t ∧ b'.out = a'.out ++ t := by
  obtain ⟨n1, w1, u1, t1, p1, p2, p0, p3, p4, p5⟩ := h
  obtain ⟨n2, w2, u2, t2, q1, q2, q0, q3, q4, q5⟩ := h'
  rw [p1, q1, List.drop_left, List.drop_left] at hn
  subst hn
  obtain ⟨u3, r1, r2⟩ := inTurn_alike (alike_trans (alike_symm p0) (alike_trans hw q0)) p3
  rw [r1] at q3
  cases q3
  exact ⟨t1, p5, q5⟩

/-- One call on a consumer. -/
theorem said_call {w v : World} {out t : List Byte} {c : ConsumerCall} (hc : K c) (h : callConsumerO g w c = .ok (v, t)) :
    Said g K ⟨w, out⟩ ⟨v, out ++ t⟩ := by
  obtain ⟨t', h1, h'⟩ := bind_ok h
  obtain ⟨v', h2, h'⟩ := bind_ok h'
  cases h'
  obtain ⟨-, -, -, -, l, e1, e2⟩ := callConsumer_log _ _ _ h2
  have e3 : callsIn ([.consumer c] ++ l) = [c] := by
    rcases e2 with rfl | ⟨cb, b, seen, -, -, rfl⟩ <;> rfl
  refine ⟨[.consumer c] ++ l, w, v, t, by rw [e1, List.append_assoc], ?_, alike_refl _, ?_, alike_refl _, rfl⟩
  · rw [e3]; intro x hx; rw [List.mem_singleton.mp hx]; exact hc
  · rw [e3, inTurn, h]
    simp [bind, Except.bind, inTurn]

theorem said_inTurn {cs : List ConsumerCall} {w v : World} {out t : List Byte} (hc : ∀ c ∈ cs, K c)
    (h : inTurn (callConsumerO g) w cs = .ok (v, t)) : Said g K ⟨w, out⟩ ⟨v, out ++ t⟩ := by
  induction cs generalizing w out t with
  | nil => cases h; rw [List.append_nil]; exact said_refl _
  | cons c cs ih =>
    rw [inTurn] at h
    obtain ⟨⟨u, t1⟩, h1, h⟩ := bind_ok h
    obtain ⟨⟨v', t2⟩, h2, h⟩ := bind_ok h
    cases h
    rw [← List.append_assoc]
    exact said_trans (said_call (hc c (List.mem_cons_self ..)) h1) (ih (fun x hx => hc x (List.mem_cons_of_mem _ hx)) h2)

theorem said_setParser (h : Desk) (n : Nat) (p : StreamParser) : Said g K h (h.setParser n p) :=
  said_put (new := []) (alike_refl _) (List.append_nil _).symm rfl

theorem said_setText (h : Desk) (n : Nat) (t : TextParser) : Said g K h (h.setText n t) :=
  said_put (new := []) (alike_refl _) (List.append_nil _).symm rfl

theorem said_register (h : Desk) (p : Option Nat) : Said g K h (h.put (h.w.register p)) :=
  said_put (new := []) (alike_refl _) (List.append_nil _).symm rfl

end

theorem keeps_of_returns {α : Type} {x : Run α} {Q : α → Prop} (h : ∀ a, x.Returns a → Q a) : x.Keeps Q := by
  unfold Run.Keeps Run.Sat
  unfold Run.Returns at h
  cases hx : x.run with
  | none => trivial
  | some r =>
    cases r with
    | error e => trivial
    | ok a => exact h a hx

section
variable {g : LogConfig} {P : Program} {k : Desk → Op → Run Desk} (hP : P.Silent) {K : ConsumerCall → Prop}
include hP

theorem react_flat (h : Desk) (e : LogEntry) : react P k h e = pure h := by
  unfold react
  rw [hP]
  rfl

theorem tell_flat (h : Desk) (e : LogEntry) : tell P k h e = pure (h.put (h.w.logAll [e])) := react_flat hP _ _

theorem callConsumer_flat (h : Desk) (c : ConsumerCall) (h' : Desk) (hr : (callConsumer g P k h c).Returns h') :
    ∃ t, callConsumerO g h.w c = .ok (h'.w, t) ∧ h'.out = h.out ++ t := by
  unfold callConsumer at hr
  simp only [World.foldlM_pure _ (react_flat hP)] at hr
  obtain ⟨h1, r1, hr⟩ := returns_bind.mp hr
  obtain ⟨v, r2, hr⟩ := returns_bind.mp hr
  obtain ⟨t, r3, r4⟩ := returns_bind.mp r1
  rw [returns_lift] at r3 r2
  cases r4
  cases hr
  refine ⟨t, ?_, rfl⟩
  unfold callConsumerO
  rw [r3]
  show (h.w.callConsumer c).bind _ = _
  rw [show h.w.callConsumer c = .ok v from r2]
  rfl

theorem callConsumer_said (h : Desk) (c : ConsumerCall) (hc : K c) : (callConsumer g P k h c).Keeps (Said g K h) := by
  refine keeps_of_returns fun h' hr => ?_
  obtain ⟨t, h1, h2⟩ := callConsumer_flat hP h c h' hr
  have := said_call (out := h.out) hc h1
  rw [← h2] at this
  exact this

theorem tellConsumers_said (h : Desk) (cs : List ConsumerCall) (hc : ∀ c ∈ cs, K c) : (tellConsumers g P k h cs).Keeps (Said g K h) :=
  sat_foldlM (callConsumer g P k) (Said g K h) cs h (fun c hm b hb => sat_mono (callConsumer_said hP b c (hc c hm)) (fun _ => said_trans hb))
    (said_refl h)

end

/-- A call that gives a consumer an entry. -/
def IsEntry (c : ConsumerCall) : Prop := c.isEntry = true

/-- A call that tells a consumer of the end of a stream. -/
def IsEnd (c : ConsumerCall) : Prop := c.isEntry = false

section
variable {g : LogConfig} {P : Program} {k : Desk → Op → Run Desk} (hP : P.Silent) {K : ConsumerCall → Prop}
include hP

theorem tellEvents_said (h : Desk) (evs : List ParseEvent) : (tellEvents g P k h evs).Keeps (Said g IsEntry h) :=
  tellConsumers_said hP h _ (by
    intro c hc
    obtain ⟨e, -, rfl⟩ := List.mem_map.mp hc
    rfl)

theorem findToken_said (h : Desk) (n o : Nat) (cs : List Byte) (d : TextParser.Dest) :
    (findToken g P k h n o cs d).Keeps (fun x => Said g IsEntry h x.1) := by
  refine sat_bind (keeps_lift (Q := fun _ => True) (fun _ _ => trivial)) ?_
  rintro ⟨t, evs, r⟩ -
  exact sat_bind (tellEvents_said hP (h.setText n t) evs) (fun a ha => ha)

theorem processStep_said (h : Desk) (n o : Nat) : (processStep g P k h n o).Keeps (fun x => Said g IsEntry h x.1) := by
  have plain : (do
        let (t, evs, consumed, stop) ← Run.lift ((h.text n).processStep o)
        let h ← tellEvents g P k (h.setText n t) evs
        pure (h, consumed, stop) : Run (Desk × Nat × Bool)).Keeps (fun x => Said g IsEntry h x.1) := by
    refine sat_bind (keeps_lift (Q := fun _ => True) (fun _ _ => trivial)) ?_
    rintro ⟨t, evs, c, s⟩ -
    exact sat_bind (tellEvents_said hP (h.setText n t) evs) (fun a ha => ha)
  unfold processStep
  cases (h.text n).state with
  | LOOKING_FOR_KEY_OR_SECTION_START => exact plain
  | PARSING_SECTION => exact plain
  | LOOKING_FOR_VALUE_START => exact plain
  | ERROR => exact plain
  | PARSING_KEY =>
    refine sat_bind (findToken_said hP h n _ _ _) ?_
    rintro ⟨h1, r⟩ a1
    dsimp only
    split
    · split
      · exact a1
      · split
        · refine sat_bind (keeps_lift (Q := fun _ => True) (fun _ _ => trivial)) ?_
          intro value _
          refine sat_bind (tellEvents_said hP (h1.setText n { h1.text n with value := value }) _) ?_
          intro h2 a2
          refine sat_bind (keeps_lift (Q := fun _ => True) (fun _ _ => trivial)) ?_
          intro key _
          exact said_trans a1 a2
        · exact a1
    · exact a1
  | PARSING_VALUE =>
    refine sat_bind (findToken_said hP h n _ _ _) ?_
    rintro ⟨h1, r⟩ a1
    dsimp only
    split
    · refine sat_bind (tellEvents_said hP h1 _) ?_
      intro h2 a2
      refine sat_bind (keeps_lift (Q := fun _ => True) (fun _ _ => trivial)) ?_
      intro key _
      refine sat_bind (keeps_lift (Q := fun _ => True) (fun _ _ => trivial)) ?_
      intro value _
      exact said_trans a1 a2
    · exact a1

theorem processLoop_said (fuel : Nat) : ∀ (h : Desk) (n o : Nat), (processLoop g P k fuel h n o).Keeps (fun x => Said g IsEntry h x.1) := by
  induction fuel with
  | zero => intro h n o; trivial
  | succ fuel ih =>
    intro h n o
    unfold processLoop
    split
    · refine sat_bind (processStep_said hP h n o) ?_
      rintro ⟨h1, c, s⟩ a1
      dsimp only
      split
      · exact a1
      · exact sat_mono (ih h1 n c) (fun _ => said_trans a1)
    · exact said_refl h

theorem reportParseError_said (h : Desk) (n : Nat) : (reportParseError g P k h n).Keeps (Said g IsEntry h) := by
  refine sat_bind (keeps_lift (Q := fun _ => True) (fun _ _ => trivial)) ?_
  rintro ⟨t, evs⟩ -
  exact tellEvents_said hP (h.setText n t) evs

theorem addLoop_said (fuel : Nat) : ∀ (h : Desk) (n : Nat) (input : BufferManager) (i : Nat),
    (addLoop g P k fuel h n input i).Keeps (Said g IsEntry h) := by
  induction fuel with
  | zero => intro h n input i; trivial
  | succ fuel ih =>
    intro h n input i
    unfold addLoop
    split
    · split
      · exact reportParseError_said hP h n
      · refine sat_bind (keeps_lift (Q := fun _ => True) (fun _ _ => trivial)) ?_
        rintro ⟨buffer, m⟩ -
        refine sat_bind (processLoop_said hP _ (h.setText n { h.text n with buffer := buffer }) n 0) ?_
        rintro ⟨h1, c⟩ a1
        dsimp only
        refine sat_bind (keeps_lift (Q := fun _ => True) (fun _ _ => trivial)) ?_
        intro buffer _
        exact sat_mono (ih (h1.setText n { h1.text n with buffer := buffer }) n input _) (fun _ => said_trans a1)
    · exact said_refl h

theorem addText_said (h : Desk) (n : Nat) (input : BufferManager) : (addText g P k h n input).Keeps (Said g IsEntry h) := by
  unfold addText
  split
  · exact reportParseError_said hP h n
  · exact addLoop_said hP _ h n input 0

theorem tellConsumers_parsers (cs : List ConsumerCall) (h : Desk) : (tellConsumers g P k h cs).Keeps (fun h' => h'.w.parsers = h.w.parsers) :=
  sat_foldlM (callConsumer g P k) (fun h' => h'.w.parsers = h.w.parsers) cs h (fun c _ b hb => keeps_of_returns fun h' hr => by
    obtain ⟨t, h1, -⟩ := callConsumer_flat hP b c h' hr
    obtain ⟨t', -, h1⟩ := bind_ok h1
    obtain ⟨v, h2, h1⟩ := bind_ok h1
    cases h1
    rw [(callConsumer_log _ _ _ h2).1, hb]) rfl

end

/-- `addMessage` of a parser: the text at the beginning, entries, the text at the end, the end of the stream. -/
def SaidAdd (g : LogConfig) (n : Nat) (d : Data) (h h' : Desk) : Prop :=
  ∃ t1 t2 m, (h.w.parsers n).headText g d = .ok t1 ∧ Said g IsEntry ⟨h.w, h.out ++ t1⟩ m ∧
    (h.w.parsers n).tailText g d (h'.w.parsers n) = .ok t2 ∧ Said g IsEnd ⟨m.w, m.out ++ t2⟩ h'

theorem filter_all {α : Type} (f : α → Bool) (l : List α) (h : ∀ x ∈ l, f x = true) : l.filter f = l := List.filter_eq_self.mpr h

theorem filter_none {α : Type} (f : α → Bool) (l : List α) (h : ∀ x ∈ l, f x = false) : l.filter f = [] := by
  rw [List.filter_eq_nil_iff]
  intro x hx
  rw [h x hx]
  exact Bool.false_ne_true

/-- The calls decide the text. -/
theorem saidAdd_same {g : LogConfig} {n : Nat} {d : Data} {w v : World} {out out1 out2 : List Byte}
    (h1 : SaidAdd g n d ⟨w, out⟩ ⟨v, out1⟩) (h2 : SaidAdd g n d ⟨w, out⟩ ⟨v, out2⟩) : out1 = out2 := by
  obtain ⟨s1, s2, m, a1, ⟨n1, w1, u1, t1, p1, p2, p0, p3, p4, p5⟩, a2, ⟨n2, w2, u2, t2, q1, q2, q0, q3, q4, q5⟩⟩ := h1
  obtain ⟨s1', s2', m', b1, ⟨n1', w1', u1', t1', p1', p2', p0', p3', p4', p5'⟩, b2, ⟨n2', w2', u2', t2', q1', q2', q0', q3', q4', q5'⟩⟩ := h2
  rw [a1] at b1
  cases b1
  rw [a2] at b2
  cases b2
  dsimp only at *
  have e : callsIn n1 ++ callsIn n2 = callsIn n1' ++ callsIn n2' := by
    rw [q1, p1, p1', List.append_assoc, List.append_assoc] at q1'
    rw [← callsIn_append, ← callsIn_append, List.append_cancel_left q1']
  have e1 := congrArg (List.filter (·.isEntry)) e
  have e2 := congrArg (List.filter (!·.isEntry)) e
  rw [List.filter_append, List.filter_append, filter_all _ _ p2, filter_all _ _ p2', filter_none _ _ q2, filter_none _ _ q2',
    List.append_nil, List.append_nil] at e1
  rw [e1] at e
  replace e := List.append_cancel_left e
  rw [e1] at p3
  rw [e] at q3
  obtain ⟨u3, r1, r2⟩ := inTurn_alike (alike_trans (alike_symm p0) p0') p3
  rw [r1] at p3'
  cases p3'
  obtain ⟨u4, r3, r4⟩ := inTurn_alike (alike_trans (alike_symm q0) (alike_trans (alike_symm p4) (alike_trans r2 (alike_trans p4' q0')))) q3
  rw [r3] at q3'
  cases q3'
  rw [q5, q5', p5, p5']

theorem tailText_congr {g : LogConfig} {p q q' : StreamParser} {d : Data} (h1 : q.remaining = q'.remaining) (h2 : q.crc = q'.crc) :
    p.tailText g d q = p.tailText g d q' := by
  unfold StreamParser.tailText StreamParser.getCrc
  rw [h1, h2]

theorem notify_ends (p : StreamParser) (a : ConsumerAction) (ha : ∀ s k v, a ≠ .consume s k v) : ∀ c ∈ p.notify a, IsEnd c := by
  intro c hc
  unfold StreamParser.notify at hc
  cases h : p.consumer with
  | none => rw [h] at hc; cases hc
  | some m =>
    rw [h] at hc
    rw [List.mem_singleton.mp hc]
    unfold IsEnd ConsumerCall.isEntry
    cases a with
    | consume s k v => exact absurd rfl (ha s k v)
    | complete => rfl
    | aborted => rfl

theorem resetNotify_ends (p : StreamParser) : ∀ c ∈ p.resetNotify, IsEnd c := by
  unfold StreamParser.resetNotify
  split
  · exact notify_ends p _ (by intro s k v hc; cases hc)
  · intro c hc; cases hc

theorem addMessage_first {p q : StreamParser} {d : Data} {cs : List ConsumerCall} (h1 : World.resets p d = false)
    (h2 : p.state ≠ .WAITING_DATA_PACKET) (h : p.addMessage d = .ok (q, cs)) : ∀ c ∈ cs, IsEnd c := by
  unfold StreamParser.addMessage at h
  unfold World.resets at h1
  cases hs : p.state with
  | IDLE => rw [hs] at h; cases h; intro c hc; cases hc
  | STREAM_DONE => rw [hs] at h; cases h; intro c hc; cases hc
  | WAITING_DATA_PACKET => exact absurd hs h2
  | WAITING_FIRST_PACKET =>
    rw [hs] at h h1
    dsimp only at h h1
    have hd : d.dlc = 6#8 ∨ d.dlc = 7#8 := by
      by_cases h6 : d.dlc = 6#8
      · exact .inl h6
      · by_cases h7 : d.dlc = 7#8
        · exact .inr h7
        · simp [h6, h7] at h1
    unfold StreamParser.addFirst at h
    rw [if_pos hd] at h
    obtain ⟨crc, -, h⟩ := bind_ok h
    dsimp only at h
    split at h
    · cases h; intro c hc; cases hc
    · cases h
      exact notify_ends _ _ (by intro s k v hc; cases hc)

theorem tailText_none {g : LogConfig} {p q : StreamParser} {d : Data} (h : ¬(p.state = .WAITING_DATA_PACKET ∧ d.dlc = 8#8)) :
    p.tailText g d q = .ok [] := by
  unfold StreamParser.tailText
  rw [if_neg h]

section
variable {g : LogConfig} {P : Program} {k : Desk → Op → Run Desk} (hP : P.Silent)
include hP

theorem parserReset_said (h : Desk) (n : Nat) : (parserReset g P k h n).Keeps (Said g IsEnd h) := by
  refine sat_bind (tellConsumers_said hP h _ (resetNotify_ends _)) ?_
  intro h1 a1
  refine sat_bind (keeps_lift (Q := fun _ => True) (fun _ _ => trivial)) ?_
  intro p _
  exact a1

theorem tellEnds (h : Desk) (cs : List ConsumerCall) (hc : ∀ c ∈ cs, IsEnd c) :
    (tellConsumers g P k h cs).Keeps (fun h' => Said g IsEnd h h' ∧ h'.w.parsers = h.w.parsers) :=
  keeps_of_returns fun _ hr => ⟨keeps_returns (tellConsumers_said hP h cs hc) hr, keeps_returns (tellConsumers_parsers hP cs h) hr⟩

theorem parserAdd_said (h : Desk) (n : Nat) (d : Data) : (parserAdd g P k h n d).Keeps (SaidAdd g n d h) := by
  unfold parserAdd say
  cases ht : (h.w.parsers n).headText g d with
  | error e => trivial
  | ok t =>
    show Run.Keeps (if World.resets (h.w.parsers n) d = true then parserReset g P k ⟨h.w, h.out ++ t⟩ n
      else if (h.w.parsers n).state = .WAITING_DATA_PACKET then parserData g P k ⟨h.w, h.out ++ t⟩ n d
      else do
        let (p, calls) ← Run.lift ((h.w.parsers n).addMessage d)
        tellConsumers g P k (Desk.setParser ⟨h.w, h.out ++ t⟩ n p) calls) _
    split
    · rename_i hr
      refine sat_mono (parserReset_said hP ⟨h.w, h.out ++ t⟩ n) (fun h1 a1 => ?_)
      refine ⟨t, [], ⟨h.w, h.out ++ t⟩, ht, said_refl _, tailText_none ?_, ?_⟩
      · rintro ⟨e1, e2⟩
        unfold World.resets at hr
        rw [e1] at hr
        simp [e2] at hr
      · rw [List.append_nil]; exact a1
    · rename_i hr
      split
      · rename_i hd
        have h8 : d.dlc = 8#8 := by
          unfold World.resets at hr
          rw [hd] at hr
          simpa using hr
        refine sat_bind (keeps_lift (Q := fun _ => True) (fun _ _ => trivial)) ?_
        intro crc _
        refine sat_bind (addText_said hP (Desk.setParser ⟨h.w, h.out ++ t⟩ n { h.w.parsers n with
            remaining := (h.w.parsers n).remaining - d.dlc.zeroExtend 32
            crc := some ((d.bytes.take d.dlc.toNat).foldl Crc.updateCrc crc) }) n _) ?_
        intro h1 a1
        dsimp only
        unfold say
        cases ht2 : (h.w.parsers n).tailText g d (h1.w.parsers n) with
        | error e => trivial
        | ok t2 =>
          have fin : ∀ h' : Desk, Said g IsEnd ⟨h1.w, h1.out ++ t2⟩ h' → (h'.w.parsers n).remaining = (h1.w.parsers n).remaining →
              (h'.w.parsers n).crc = (h1.w.parsers n).crc → SaidAdd g n d h h' := by
            intro h' b1 b2 b3
            exact ⟨t, t2, h1, ht, a1, by rw [tailText_congr b2 b3]; exact ht2, b1⟩
          show Run.Keeps (if (h1.w.parsers n).remaining = 0#32 then _ else _) _
          split
          · refine sat_bind (keeps_lift (Q := fun _ => True) (fun _ _ => trivial)) ?_
            intro crc _
            have key : ∀ (s : StreamState) (a : ConsumerAction), (∀ x y z, a ≠ .consume x y z) →
                (tellConsumers g P k (Desk.setParser ⟨h1.w, h1.out ++ t2⟩ n { h1.w.parsers n with state := s })
                  (((Desk.setParser ⟨h1.w, h1.out ++ t2⟩ n { h1.w.parsers n with state := s }).w.parsers n).notify a)).Keeps (SaidAdd g n d h) := by
              intro s a ha
              refine sat_mono (tellEnds hP _ _ (notify_ends _ _ ha)) ?_
              rintro h' ⟨b1, b2⟩
              refine fin h' b1 ?_ ?_
              · rw [b2]; simp [Desk.setParser, Desk.put, World.setParser]
              · rw [b2]; simp [Desk.setParser, Desk.put, World.setParser]
            split
            · exact key _ _ (by intro x y z hc; cases hc)
            · exact key _ _ (by intro x y z hc; cases hc)
          · exact fin _ (said_refl _) rfl rfl
      · rename_i hd
        refine sat_bind (keeps_lift (Q := fun x => (h.w.parsers n).addMessage d = .ok x) (fun _ hx => hx)) ?_
        rintro ⟨p, calls⟩ hx
        refine sat_mono (tellConsumers_said hP (Desk.setParser ⟨h.w, h.out ++ t⟩ n p) calls (addMessage_first (by simpa using hr) hd hx))
          (fun h1 a1 => ?_)
        refine ⟨t, [], ⟨h.w, h.out ++ t⟩, ht, said_refl _, tailText_none (fun hh => hd hh.1), ?_⟩
        rw [List.append_nil]
        exact a1

end

theorem inTurn_parsers {g : LogConfig} {cs : List ConsumerCall} {w v : World} {t : List Byte} (h : inTurn (callConsumerO g) w cs = .ok (v, t)) :
    v.parsers = w.parsers := by
  induction cs generalizing w t with
  | nil => cases h; rfl
  | cons c cs ih =>
    rw [inTurn] at h
    obtain ⟨⟨u, t1⟩, h1, h⟩ := bind_ok h
    obtain ⟨⟨v', t2⟩, h2, h⟩ := bind_ok h
    cases h
    obtain ⟨t', -, h1⟩ := bind_ok h1
    obtain ⟨v, h3, h1⟩ := bind_ok h1
    cases h1
    rw [ih h2, (callConsumer_log _ _ _ h3).1]

theorem parserAddO_said {g : LogConfig} {w v : World} {n : Nat} {d : Data} {t : List Byte} (out : List Byte)
    (h : w.parserAddO g n d = .ok (v, t)) : SaidAdd g n d ⟨w, out⟩ ⟨v, out ++ t⟩ := by
  obtain ⟨t1, e1, h⟩ := bind_ok h
  obtain ⟨⟨q, calls⟩, e2, h⟩ := bind_ok h
  obtain ⟨⟨u, t2⟩, e3, h⟩ := bind_ok h
  obtain ⟨t3, e4, h⟩ := bind_ok h
  obtain ⟨⟨v', t4⟩, e5, h⟩ := bind_ok h
  cases h
  have hq : v.parsers n = q := by
    rw [inTurn_parsers e5, inTurn_parsers e3]
    simp [World.setParser]
  refine ⟨t1, t3, ⟨u, out ++ t1 ++ t2⟩, e1, ?_, by rw [hq]; exact e4, ?_⟩
  · exact said_trans (said_setParser ⟨w, out ++ t1⟩ n q) (said_inTurn (fun c hc => (List.mem_filter.mp hc).2) e3)
  · have : out ++ (t1 ++ t2 ++ t3 ++ t4) = out ++ t1 ++ t2 ++ t3 ++ t4 := by simp only [List.append_assoc]
    rw [this]
    exact said_inTurn (fun c hc => by have := (List.mem_filter.mp hc).2; unfold IsEnd; simpa using this) e5

/-- No call hands a packet to a parser. -/
def NoAdd (cs : List Call) : Prop := ∀ c ∈ cs, ∀ n d, c ≠ .cfgAdd n d

theorem noAdd_nil : NoAdd [] := fun c hc => by cases hc

theorem noAdd_append {a b : List Call} (ha : NoAdd a) (hb : NoAdd b) : NoAdd (a ++ b) := by
  intro c hc
  rcases List.mem_append.mp hc with hc | hc
  · exact ha c hc
  · exact hb c hc

theorem txSend_noAdd {s : Station} {f : CanFrame} {cs : List Call} (h : s.txSend f = .ok cs) : NoAdd cs := by
  unfold Station.txSend at h
  split at h
  · cases h
  · cases h
    intro c hc n d he
    rw [List.mem_singleton.mp hc] at he
    cases he

theorem finish_noAdd (s : Station) : NoAdd s.FinishCurrentConfigRequest.2 := by
  unfold Station.FinishCurrentConfigRequest
  cases s.callbacks.configData with
  | none => exact noAdd_nil
  | some cb =>
    intro c hc n d he
    rw [List.mem_singleton.mp hc] at he
    cases he

theorem start_noAdd (o : Option Nat) : NoAdd (match o with | none => [] | some cb => [Call.cfgStart cb]) := by
  cases o with
  | none => exact noAdd_nil
  | some cb =>
    intro c hc n d he
    rw [List.mem_singleton.mp hc] at he
    cases he

theorem allFunctionsLoop_noAdd {s : Station} (n : Nat) : ∀ {f : CanFrame} {i : Byte} {cs : List Call},
    s.allFunctionsLoop f n i = .ok cs → NoAdd cs := by
  induction n with
  | zero => intro f i cs h; cases h; exact noAdd_nil
  | succ n ih =>
    intro f i cs h
    obtain ⟨t, h1, h⟩ := bind_ok h
    obtain ⟨ts, h2, h⟩ := bind_ok h
    cases h
    exact noAdd_append (txSend_noAdd h1) (ih h2)

theorem requestEngineList_noAdd {s s' : Station} {off : Byte} {p : Option Nat} {cs : List Call}
    (h : s.RequestEngineList off p = .ok (s', cs)) : NoAdd cs := by
  unfold Station.RequestEngineList at h
  dsimp only at h
  obtain ⟨m1, -, h⟩ := bind_ok h
  obtain ⟨⟨m2, n2⟩, -, h⟩ := bind_ok h
  dsimp only at h
  split at h
  · obtain ⟨t1, h1, h⟩ := bind_ok h
    obtain ⟨t2, h2, h⟩ := bind_ok h
    cases h
    exact noAdd_append (noAdd_append (noAdd_append (finish_noAdd s) (start_noAdd p)) (txSend_noAdd h1)) (txSend_noAdd h2)
  · cases h
    exact finish_noAdd s

theorem requestEngine_noAdd {s s' : Station} {b : Bool} {i : ShortInfo} {p : Option Nat} {cs : List Call}
    (h : s.RequestEngine b i p = .ok (s', cs)) : NoAdd cs := by
  unfold Station.RequestEngine at h
  split at h
  · cases h; exact noAdd_nil
  · split at h
    · cases h; exact noAdd_nil
    · obtain ⟨m1, -, h⟩ := bind_ok h
      obtain ⟨t1, h1, h⟩ := bind_ok h
      obtain ⟨len, -, h⟩ := bind_ok h
      obtain ⟨m2, -, h⟩ := bind_ok h
      obtain ⟨t2, h2, h⟩ := bind_ok h
      obtain ⟨m3, -, h⟩ := bind_ok h
      obtain ⟨t3, h3, h⟩ := bind_ok h
      cases h
      exact noAdd_append (noAdd_append (noAdd_append (noAdd_append (finish_noAdd s) (start_noAdd p)) (txSend_noAdd h1)) (txSend_noAdd h2))
        (txSend_noAdd h3)

/-- Any calls on consumers. -/
abbrev Any : ConsumerCall → Prop := fun _ => True

theorem runCallO_said {g : LogConfig} {w v : World} {c : Call} {t : List Byte} (out : List Byte) (hc : ∀ n d, c ≠ .cfgAdd n d)
    (h : w.runCallO g c = .ok (v, t)) : Said g Any ⟨w, out⟩ ⟨v, out ++ t⟩ := by
  have plain : ∀ e : LogEntry, callsIn [e] = [] → Said g Any ⟨w, out⟩ ⟨w.logAll [e], out ++ []⟩ := by
    intro e he
    rw [List.append_nil]
    exact said_put (h := ⟨w, out⟩) (w := w.logAll [e]) (new := [e]) ⟨rfl, rfl, rfl⟩ rfl he
  cases c with
  | cfgStart n => cases h; rw [List.append_nil]; exact said_setParser ⟨w, out⟩ n _
  | cfgAdd n d => exact absurd rfl (hc n d)
  | cfgReset n =>
    obtain ⟨⟨p, calls⟩, e1, h⟩ := bind_ok h
    exact said_trans (said_setParser ⟨w, out⟩ n p) (said_inTurn (fun _ _ => trivial) h)
  | _ => cases h; exact plain _ rfl

theorem runCallsO_said {g : LogConfig} {cs : List Call} {w v : World} {t : List Byte} (out : List Byte) (hc : NoAdd cs)
    (h : inTurn (runCallO g) w cs = .ok (v, t)) : Said g Any ⟨w, out⟩ ⟨v, out ++ t⟩ := by
  induction cs generalizing w out t with
  | nil => cases h; rw [List.append_nil]; exact said_refl _
  | cons c cs ih =>
    rw [inTurn] at h
    obtain ⟨⟨u, t1⟩, h1, h⟩ := bind_ok h
    obtain ⟨⟨v', t2⟩, h2, h⟩ := bind_ok h
    cases h
    rw [← List.append_assoc]
    exact said_trans (runCallO_said out (hc c (List.mem_cons_self ..)) h1) (ih _ (fun x hx => hc x (List.mem_cons_of_mem _ hx)) h2)

section
variable {g : LogConfig} {P : Program} {k : Desk → Op → Run Desk} (hP : P.Silent)
include hP

theorem tell_said (h : Desk) (e : LogEntry) (he : callsIn [e] = []) : (tell P k h e).Keeps (Said g Any h) := by
  rw [tell_flat hP]
  exact said_put (w := h.w.logAll [e]) (new := [e]) ⟨rfl, rfl, rfl⟩ rfl he

theorem parserReset_any (h : Desk) (n : Nat) : (parserReset g P k h n).Keeps (Said g Any h) :=
  sat_mono (parserReset_said hP h n) (fun _ => said_mono (fun _ _ => trivial))

theorem runCall_said (h : Desk) (c : Call) (hc : ∀ n d, c ≠ .cfgAdd n d) : (runCall g P k h c).Keeps (Said g Any h) := by
  cases c with
  | cfgStart n => exact said_setParser h n _
  | cfgAdd n d => exact absurd rfl (hc n d)
  | cfgReset n => exact parserReset_any hP h n
  | tx cb f =>
    unfold runCall
    dsimp only
    cases h.w.station.callbacks.tx with
    | none => trivial
    | some cb => exact tell_said hP h _ rfl
  | _ => exact tell_said hP h _ rfl

theorem runCalls_said (h : Desk) (r : Res (List Call)) (hr : ∀ cs, r = .ok cs → NoAdd cs) : (runCalls g P k h r).Keeps (Said g Any h) := by
  refine sat_bind (keeps_lift (Q := fun cs => r = .ok cs) (fun _ hx => hx)) ?_
  intro cs hcs
  exact sat_foldlM (runCall g P k) (Said g Any h) cs h
    (fun c hm b hb => sat_mono (runCall_said hP b c (hr cs hcs c hm)) (fun _ => said_trans hb)) (said_refl h)

theorem finish_said (h : Desk) : (finish g P k h).Keeps (Said g Any h) := by
  unfold finish
  cases h.w.station.callbacks.configData with
  | none => exact said_refl h
  | some n => exact sat_bind (parserReset_any hP h n) (fun a ha => ha)

omit hP in
theorem finish_none (h : Desk) : (finish g P k h).Keeps (fun h' => h'.w.station.callbacks.configData = none) := by
  unfold finish
  cases hc : h.w.station.callbacks.configData with
  | none => exact hc
  | some n => exact sat_bind (keeps_of_returns (Q := fun _ => True) (fun _ _ => trivial)) (fun a _ => rfl)

theorem send8_said (h : Desk) (id : Identifier) (bytes : List Byte) : (send8 g P k h id bytes).Keeps (Said g Any h) :=
  runCalls_said hP h _ (fun _ => txSend_noAdd)

theorem requestEngine_said (h : Desk) (info : World → ShortInfo) (p : Option Nat) : (requestEngine g P k h info p).Keeps (Said g Any h) := by
  unfold requestEngine
  split
  · exact said_refl h
  · split
    · exact said_refl h
    · refine sat_bind (finish_said hP h) ?_
      intro h1 a1
      refine sat_bind (keeps_lift (Q := fun _ => True) (fun _ _ => trivial)) (fun _ _ => sat_bind (send8_said hP _ _ _) (fun h2 a2 => ?_))
      refine sat_bind (keeps_lift (Q := fun _ => True) (fun _ _ => trivial)) (fun _ _ => ?_)
      refine sat_bind (keeps_lift (Q := fun _ => True) (fun _ _ => trivial)) (fun _ _ => sat_bind (send8_said hP _ _ _) (fun h3 a3 => ?_))
      refine sat_bind (keeps_lift (Q := fun _ => True) (fun _ _ => trivial)) (fun _ _ => sat_mono (send8_said hP _ _ _) (fun h4 a4 => ?_))
      refine said_trans (said_trans (said_trans ?_ a2) a3) a4
      cases p with
      | none => exact a1
      | some n => exact a1

end

theorem said_unique {g : LogConfig} {K K' : ConsumerCall → Prop} {w v : World} {out out1 out2 : List Byte} (h1 : Said g K ⟨w, out⟩ ⟨v, out1⟩)
    (h2 : Said g K' ⟨w, out⟩ ⟨v, out2⟩) : out1 = out2 := by
  obtain ⟨t, e1, e2⟩ := said_same (b := ⟨v, out1⟩) (b' := ⟨v, out2⟩) (alike_refl w) rfl h1 h2
  exact e1.trans e2.symm

theorem shadow_returns {α β : Type} {q : Prop} {f : α → β} {x : Run α} {y : Run β} (h : x.Shadow q f y) {a : α} (ha : x.Returns a) :
    y.Returns (f a) := by
  unfold Run.Shadow at h
  unfold Run.Returns at ha
  rw [ha] at h
  exact h

theorem runCallO_plain {g : LogConfig} {w v : World} {c : Call} {t : List Byte} (hc : ∀ n, c ≠ .cfgStart n ∧ c ≠ .cfgReset n ∧ ∀ d, c ≠ .cfgAdd n d)
    (h : w.runCallO g c = .ok (v, t)) : t = [] := by
  cases c with
  | cfgStart n => exact absurd rfl (hc n).1
  | cfgAdd n d => exact absurd rfl ((hc n).2.2 d)
  | cfgReset n => exact absurd rfl (hc n).2.1
  | _ => cases h; rfl

theorem runCallsO_plain {g : LogConfig} {cs : List Call} {w v : World} {t : List Byte}
    (hc : ∀ c ∈ cs, ∀ n, c ≠ .cfgStart n ∧ c ≠ .cfgReset n ∧ ∀ d, c ≠ .cfgAdd n d)
    (h : inTurn (runCallO g) w cs = .ok (v, t)) : t = [] := by
  induction cs generalizing w t with
  | nil => cases h; rfl
  | cons c cs ih =>
    rw [inTurn] at h
    obtain ⟨⟨u, t1⟩, h1, h⟩ := bind_ok h
    obtain ⟨⟨v', t2⟩, h2, h⟩ := bind_ok h
    cases h
    rw [runCallO_plain (hc c (List.mem_cons_self ..)) h1, ih (fun x hx => hc x (List.mem_cons_of_mem _ hx)) h2]
    rfl

section
variable {g : LogConfig} {P : Program} {k : Desk → Op → Run Desk} {k' : World → Op → Run World} (hP : P.Silent)
  (hk : ∀ h op, (k h op).Shadow g.Quiet (·.w) (k' h.w op))
include hP hk

theorem parserAdd_flat {h h' : Desk} {n : Nat} {d : Data} {v : World} {t : List Byte} (h1 : (parserAdd g P k h n d).Returns h')
    (h2 : h.w.parserAddO g n d = .ok (v, t)) : h'.w = v ∧ h'.out = h.out ++ t := by
  have e1 := (parserAddN_silent hP h.w h'.w n d).mp (shadow_returns (parserAdd_shadow hk h n d) h1)
  have e2 := ((prints_parserAdd g).same (x := (n, d)) h2).1
  have e : h'.w = v := by
    have := e1.symm.trans e2
    injection this
  obtain ⟨w', out'⟩ := h'
  dsimp only at e
  subst e
  exact ⟨rfl, saidAdd_same (keeps_returns (parserAdd_said hP h n d) h1) (parserAddO_said h.out h2)⟩

theorem runCall_flat {h h' : Desk} {c : Call} {v : World} {t : List Byte} (ha : Addressed h.w.station [c])
    (h1 : (runCall g P k h c).Returns h') (h2 : h.w.runCallO g c = .ok (v, t)) : h'.w = v ∧ h'.out = h.out ++ t := by
  have e1 := (runCallN_silent hP h.w h'.w c ha).mp (shadow_returns (runCall_shadow hk h c) h1)
  have e2 := ((prints_runCall g).same h2).1
  have e : h'.w = v := by
    have := e1.symm.trans e2
    injection this
  by_cases hc : ∃ n d, c = .cfgAdd n d
  · obtain ⟨n, d, rfl⟩ := hc
    exact parserAdd_flat hP hk h1 h2
  · have hc : ∀ n d, c ≠ .cfgAdd n d := fun n d he => hc ⟨n, d, he⟩
    obtain ⟨w', out'⟩ := h'
    dsimp only at e
    subst e
    exact ⟨rfl, said_unique (keeps_returns (runCall_said hP h c hc) h1) (runCallO_said h.out hc h2)⟩

theorem foldCalls_flat {cs : List Call} {h h' : Desk} {v : World} {t : List Byte} (ha : Addressed h.w.station cs)
    (h1 : (cs.foldlM (runCall g P k) h).Returns h') (h2 : inTurn (runCallO g) h.w cs = .ok (v, t)) : h'.w = v ∧ h'.out = h.out ++ t := by
  induction cs generalizing h t with
  | nil =>
    cases h2
    cases returns_pure.mp h1
    exact ⟨rfl, (List.append_nil _).symm⟩
  | cons c cs ih =>
    rw [List.foldlM_cons] at h1
    obtain ⟨m, h3, h1⟩ := returns_bind.mp h1
    rw [inTurn] at h2
    obtain ⟨⟨u, t1⟩, h4, h2⟩ := bind_ok h2
    obtain ⟨⟨v', t2⟩, h5, h2⟩ := bind_ok h2
    cases h2
    obtain ⟨e1, e2⟩ := runCall_flat hP hk (fun cb f hm => ha cb f (by rw [List.mem_singleton.mp hm]; exact List.mem_cons_self ..)) h3 h4
    subst e1
    have hs := runCall_station _ _ _ ((prints_runCall g).same h4).1
    obtain ⟨e3, e4⟩ := ih (by rw [hs]; exact fun cb f hm => ha cb f (List.mem_cons_of_mem _ hm)) h1 h5
    exact ⟨e3, by rw [e4, e2, List.append_assoc]⟩

theorem handle_flat {h h' : Desk} {f : CanFrame} {v : World} {t : List Byte} (h1 : (handle g P k h f).Returns h')
    (h2 : h.w.stepO g (.handle f) = .ok (v, t)) : h'.w = v ∧ h'.out = h.out ++ t := by
  obtain ⟨t0, e0, h2⟩ := bind_ok h2
  replace e0 : h.w.handleText g f = .ok t0 := e0
  have h2 : (do
      let (s, calls) ← (do let calls ← h.w.station.HandlePacket h.w.processing f; .ok (h.w.station, calls) : Res (Station × List Call))
      let (w, t') ← inTurn (runCallO g) { h.w with station := s } calls
      .ok (w, t0 ++ t') : Res (World × List Byte)) = .ok (v, t) := h2
  obtain ⟨⟨s, calls⟩, e1, h2⟩ := bind_ok h2
  obtain ⟨calls', e2, e1⟩ := bind_ok e1
  cases e1
  obtain ⟨⟨w', t1⟩, e3, h2⟩ := bind_ok h2
  cases h2
  replace e3 : inTurn (runCallO g) h.w calls = .ok (v, t1) := e3
  have ha := HandlePacket_addressed _ _ _ _ e2
  unfold handle at h1
  split at h1
  · rename_i hc
    obtain ⟨a, b1, h6⟩ := returns_bind.mp h1
    obtain ⟨a', b2, h7⟩ := returns_bind.mp h6
    obtain ⟨x, b3, b7⟩ := returns_bind.mp b1
    rw [returns_lift, e0] at b3
    cases b3
    cases returns_pure.mp b7
    obtain ⟨x, b4, h8⟩ := returns_bind.mp h7
    rw [returns_lift] at b4
    cases b4
    cases returns_pure.mp h8
    obtain ⟨x, b5, b6⟩ := returns_bind.mp b2
    rw [returns_lift] at b5
    rw [show ({ h with out := h.out ++ t0.dropLast } : Desk).w = h.w from rfl, e2] at b5
    cases b5
    obtain ⟨c1, c2⟩ := foldCalls_flat hP hk (h := { h with out := h.out ++ t0.dropLast }) ha b6 e3
    refine ⟨c1, ?_⟩
    have hf : Spec.commandOf f ≠ 0x21 := by
      rw [(getCommand_iff f _).mp hc]
      decide
    have := runCallsO_plain (HandlePacket_spares _ _ f hf _ e2) e3
    subst this
    show a'.out ++ str "\n" = _
    rw [c2]
    show h.out ++ t0.dropLast ++ [] ++ str "\n" = _
    rw [List.append_nil, List.append_nil, List.append_assoc, ← switch_text hc e0]
  · obtain ⟨a, b1, h6⟩ := returns_bind.mp h1
    obtain ⟨x, b3, b4⟩ := returns_bind.mp b1
    rw [returns_lift, e0] at b3
    cases b3
    cases returns_pure.mp b4
    obtain ⟨x, b5, b2⟩ := returns_bind.mp h6
    rw [returns_lift] at b5
    rw [show ({ h with out := h.out ++ t0 } : Desk).w = h.w from rfl, e2] at b5
    cases b5
    obtain ⟨c1, c2⟩ := foldCalls_flat hP hk (h := { h with out := h.out ++ t0 }) ha b2 e3
    exact ⟨c1, by rw [c2]; simp [List.append_assoc]⟩

end

theorem stationPart_noAdd {w : World} {op : Op} {r : Res (Station × List Call)} {s : Station} {cs : List Call} (ho : ∀ f, op ≠ .handle f)
    (h : w.stationPart op = some r) (hr : r = .ok (s, cs)) : NoAdd cs := by
  have pure' : ∀ {x : Res (List Call)}, (∀ l, x = .ok l → NoAdd l) →
      some (do let calls ← x; .ok (w.station, calls) : Res (Station × List Call)) = some r → NoAdd cs := by
    intro x hx he
    injection he with he
    rw [hr] at he
    obtain ⟨l, e1, e2⟩ := bind_ok he
    cases e2
    exact hx _ e1
  have tx : ∀ {f : CanFrame}, some (do let calls ← w.station.txSend f; .ok (w.station, calls) : Res (Station × List Call)) = some r → NoAdd cs :=
    pure' (fun _ => txSend_noAdd)
  subst hr
  cases op with
  | handle f => exact absurd rfl (ho f)
  | begin_ u c => cases h; exact finish_noAdd _
  | finish => injection h with h; injection h with h; rw [← show _ = cs from congrArg Prod.snd h]; exact finish_noAdd _
  | abort => injection h with h; injection h with h; rw [← show _ = cs from congrArg Prod.snd h]; exact finish_noAdd _
  | notifyReceived => injection h with h; injection h with h; rw [← show _ = cs from congrArg Prod.snd h]; exact finish_noAdd _
  | requestEngine e p => injection h with h; exact requestEngine_noAdd h
  | requestShortInfo i p => injection h with h; exact requestEngine_noAdd h
  | requestEngineList off p => injection h with h; exact requestEngineList_noAdd h
  | requestDirection e => exact tx h
  | sendDirection e d =>
    refine pure' (fun l hl => ?_) h
    unfold Station.SendEngineDirection at hl
    split at hl
    · exact txSend_noAdd hl
    · cases hl; exact noAdd_nil
  | requestVelocity e => exact tx h
  | sendVelocity e v => exact tx h
  | requestFunction e f => exact tx h
  | requestAllFunctions e => exact pure' (fun _ => allFunctionsLoop_noAdd _) h
  | sendFunction e f v => exact tx h
  | sendEmergencyStop e => exact tx h
  | sendStop => exact tx h
  | sendGo => exact tx h
  | sendAccessory a p d pw => exact tx h
  | sendPacket f => exact tx h
  | _ => cases h

theorem stepO_said {g : LogConfig} {w v : World} {op : Op} {t : List Byte} {r : Res (Station × List Call)} (out : List Byte)
    (ho : ∀ f, op ≠ .handle f) (hs : w.stationPart op = some r) (h : w.stepO g op = .ok (v, t)) :
    ∃ t0, w.opText g op = .ok t0 ∧ Said g Any ⟨w, out ++ t0⟩ ⟨v, out ++ t⟩ := by
  obtain ⟨t0, e0, h⟩ := bind_ok h
  rw [hs] at h
  dsimp only at h
  obtain ⟨⟨s, calls⟩, e1, h⟩ := bind_ok h
  obtain ⟨⟨w', t1⟩, e2, h⟩ := bind_ok h
  cases h
  refine ⟨t0, e0, ?_⟩
  rw [← List.append_assoc]
  have := runCallsO_said (out ++ t0) (stationPart_noAdd ho hs e1) e2
  exact this

section
variable {g : LogConfig} {P : Program} {k : Desk → Op → Run Desk} {k' : World → Op → Run World} (hP : P.Silent)
  (hk : ∀ h op, (k h op).Shadow g.Quiet (·.w) (k' h.w op))
include hP hk

theorem step_flat {h h' : Desk} {op : Op} {v : World} {t : List Byte} (h1 : (step g P k h op).Returns h')
    (h2 : h.w.stepO g op = .ok (v, t)) : h'.w = v ∧ h'.out = h.out ++ t := by
  have e1 := (stepN_silent hP h.w h'.w op).mp (shadow_returns (step_shadow hk h op) h1)
  have e : h'.w = v := by
    have := e1.symm.trans ((prints_step g).same h2).1
    injection this
  refine ⟨e, ?_⟩
  subst e
  have quiet : ∀ {r}, (∀ f, op ≠ .handle f) → h.w.stationPart op = some r → h.w.opText g op = .ok [] → Said g Any h h' → h'.out = h.out ++ t := by
    intro r ho hs ht hd
    obtain ⟨t0, e0, e2⟩ := stepO_said h.out ho hs h2
    rw [ht] at e0
    cases e0
    rw [List.append_nil] at e2
    exact said_unique hd e2
  have told : ∀ {r} (F : Desk → Run Desk), (∀ f, op ≠ .handle f) → h.w.stationPart op = some r → (∀ h', (F h').Keeps (Said g Any h')) →
      (h.say (h.w.opText g op) >>= F).Returns h' → h'.out = h.out ++ t := by
    intro r F ho hs hF hr
    obtain ⟨t0, e0, e2⟩ := stepO_said h.out ho hs h2
    obtain ⟨a, b1, b2⟩ := returns_bind.mp hr
    obtain ⟨x, b3, b4⟩ := returns_bind.mp b1
    rw [returns_lift, e0] at b3
    cases b3
    cases returns_pure.mp b4
    exact said_unique (keeps_returns (hF _) b2) e2
  have plain : (do let w ← Run.lift (h.w.step op); pure (h.put w) : Run Desk).Returns h' →
      (do let w ← h.w.step op; .ok (w, []) : Res (World × List Byte)) = .ok (h'.w, t) → h'.out = h.out ++ t := by
    intro b1 b2
    obtain ⟨x, b3, b4⟩ := returns_bind.mp b1
    cases returns_pure.mp b4
    obtain ⟨y, b5, b6⟩ := bind_ok b2
    cases b6
    exact (List.append_nil _).symm
  cases op with
  | handle f => exact (handle_flat hP hk h1 h2).2
  | parserAdd n d =>
    obtain ⟨t0, e0, h2⟩ := bind_ok h2
    exact (parserAdd_flat hP hk h1 h2).2
  | parserReset n =>
    obtain ⟨t0, e0, h2⟩ := bind_ok h2
    obtain ⟨⟨p, calls⟩, e3, h2⟩ := bind_ok h2
    exact said_unique (keeps_returns (parserReset_any hP h n) h1)
      (said_trans (said_setParser ⟨h.w, h.out⟩ n p) (said_inTurn (K := Any) (fun _ _ => trivial) h2))
  | begin_ u cbs =>
    refine quiet (by intro f hf; cases hf) rfl rfl (keeps_returns (x := step g P k h (.begin_ u cbs)) ?_ h1)
    refine keeps_of_returns fun a ha => ?_
    obtain ⟨m, b1, b2⟩ := returns_bind.mp ha
    obtain ⟨x, b3, b4⟩ := returns_bind.mp b2
    cases returns_pure.mp b4
    have hn := keeps_returns (finish_none h) b1
    rw [returns_lift] at b3
    have : m.w.step (.begin_ u cbs) = .ok { m.w with station := (m.w.station.begin_ u cbs).1 } := by
      show m.w.stationUpdate (.ok (m.w.station.begin_ u cbs)) = _
      unfold Station.begin_ Station.AbortCurrentConfigRequest Station.FinishCurrentConfigRequest
      rw [hn]
      rfl
    rw [this] at b3
    cases b3
    have := keeps_returns (finish_said hP h) b1
    exact this
  | requestEngineList off p =>
    refine quiet (by intro f hf; cases hf) rfl rfl (keeps_returns (x := step g P k h (.requestEngineList off p)) ?_ h1)
    refine sat_bind (finish_said hP h) (fun m a1 => ?_)
    refine sat_bind (keeps_lift (Q := fun x => m.w.station.RequestEngineList off p = .ok x) (fun _ hx => hx)) ?_
    rintro ⟨s, calls⟩ hx
    exact sat_mono (runCalls_said hP (m.put { m.w with station := s }) _ (fun cs hcs => by cases hcs; exact requestEngineList_noAdd hx))
      (fun _ => said_trans a1)
  | requestEngine e p => exact told _ (by intro f hf; cases hf) rfl (fun h' => requestEngine_said hP h' _ p) h1
  | requestShortInfo i p => exact told _ (by intro f hf; cases hf) rfl (fun h' => requestEngine_said hP h' _ p) h1
  | sendAccessory a p d pw =>
    exact told _ (by intro f hf; cases hf) rfl (fun h' => runCalls_said hP h' _ (fun _ => txSend_noAdd)) h1
  | finish => exact quiet (by intro f hf; cases hf) rfl rfl (keeps_returns (finish_said hP h) h1)
  | abort => exact quiet (by intro f hf; cases hf) rfl rfl (keeps_returns (finish_said hP h) h1)
  | notifyReceived => exact quiet (by intro f hf; cases hf) rfl rfl (keeps_returns (finish_said hP h) h1)
  | requestAllFunctions e =>
    exact quiet (by intro f hf; cases hf) rfl rfl (keeps_returns (runCalls_said hP h _ (fun _ => allFunctionsLoop_noAdd _)) h1)
  | requestDirection e => exact quiet (by intro f hf; cases hf) rfl rfl (keeps_returns (runCalls_said hP h _ (fun _ => txSend_noAdd)) h1)
  | sendDirection e d =>
    refine quiet (by intro f hf; cases hf) rfl rfl (keeps_returns (runCalls_said hP h _ (fun cs hcs => ?_)) h1)
    unfold Station.SendEngineDirection at hcs
    split at hcs
    · exact txSend_noAdd hcs
    · cases hcs; exact noAdd_nil
  | requestVelocity e => exact quiet (by intro f hf; cases hf) rfl rfl (keeps_returns (runCalls_said hP h _ (fun _ => txSend_noAdd)) h1)
  | sendVelocity e v => exact quiet (by intro f hf; cases hf) rfl rfl (keeps_returns (runCalls_said hP h _ (fun _ => txSend_noAdd)) h1)
  | requestFunction e f => exact quiet (by intro f hf; cases hf) rfl rfl (keeps_returns (runCalls_said hP h _ (fun _ => txSend_noAdd)) h1)
  | sendFunction e f v => exact quiet (by intro f hf; cases hf) rfl rfl (keeps_returns (runCalls_said hP h _ (fun _ => txSend_noAdd)) h1)
  | sendEmergencyStop e => exact quiet (by intro f hf; cases hf) rfl rfl (keeps_returns (runCalls_said hP h _ (fun _ => txSend_noAdd)) h1)
  | sendStop => exact quiet (by intro f hf; cases hf) rfl rfl (keeps_returns (runCalls_said hP h _ (fun _ => txSend_noAdd)) h1)
  | sendGo => exact quiet (by intro f hf; cases hf) rfl rfl (keeps_returns (runCalls_said hP h _ (fun _ => txSend_noAdd)) h1)
  | sendPacket f => exact quiet (by intro f hf; cases hf) rfl rfl (keeps_returns (runCalls_said hP h _ (fun _ => txSend_noAdd)) h1)
  | _ => exact plain h1 h2

theorem fold_flat {ops : List Op} {h h' : Desk} {v : World} {t : List Byte} (h1 : (ops.foldlM (step g P k) h).Returns h')
    (h2 : h.w.runO g ops = .ok (v, t)) : h'.w = v ∧ h'.out = h.out ++ t := by
  induction ops generalizing h t with
  | nil =>
    cases h2
    cases returns_pure.mp h1
    exact ⟨rfl, (List.append_nil _).symm⟩
  | cons op ops ih =>
    rw [List.foldlM_cons] at h1
    obtain ⟨m, h3, h1⟩ := returns_bind.mp h1
    unfold runO at h2
    rw [inTurn] at h2
    obtain ⟨⟨u, t1⟩, h4, h2⟩ := bind_ok h2
    obtain ⟨⟨v', t2⟩, h5, h2⟩ := bind_ok h2
    cases h2
    obtain ⟨e1, e2⟩ := step_flat hP hk h3 h4
    subst e1
    obtain ⟨e3, e4⟩ := ih h1 h5
    exact ⟨e3, by rw [e4, e2, List.append_assoc]⟩

end

end Desk

end RR32
