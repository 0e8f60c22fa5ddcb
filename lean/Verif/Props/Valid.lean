import Verif.Spec.Valid
import Verif.Props.Abort
import Verif.Proofs.NestedFrame
import Verif.Proofs.Nested
import Verif.Proofs.Compose

/-! # C99: which engines are completely known -/

set_option autoImplicit false

namespace RR32

open Spec

/-- C99. `isValid` of a consumer: its engine is completely known. -/
theorem C99_valid (c : LocoConsumer) (w : World) :
    (∀ n, c.currentEngine = .obj n → ∃ b, c.isValid w.engines = .ok b ∧ (b = true ↔ Known w n)) ∧
    (c.currentEngine = .null → c.isValid w.engines = .ok false) ∧
    (c.currentEngine = .uninit → c.isValid w.engines = .error .uninitRead) := by
  refine ⟨fun n hn => ?_, fun h => ?_, fun h => ?_⟩
  · refine ⟨(w.engines n).isFullDetailsKnown && !(w.engines n).info.isFree, ?_, ?_⟩
    · unfold LocoConsumer.isValid
      rw [hn]
      rfl
    · unfold Known Locomotive.isFullDetailsKnown ShortInfo.isFree
      cases (w.engines n).info.availability <;> decide
  · unfold LocoConsumer.isValid; rw [h]; rfl
  · unfold LocoConsumer.isValid; rw [h]; rfl

/-- What a call leaves: consumers write to the engines to which they wrote before, and the engines whose streams are complete are
completely known. -/
def Exactly (n : Nat) (w w' : World) : Prop :=
  (∀ c, WritesTo w' c n ↔ WritesTo w c n) ∧ ∃ l, w'.log = w.log ++ l ∧
    (CompletedIn w l n → (w'.engines n).info = { (w.engines n).info with availability := .FULL_DETAILS }) ∧
      (¬CompletedIn w l n → (w'.engines n).info = (w.engines n).info)

theorem exactly_same {n : Nat} {w w' : World} (l : List LogEntry) (hl : w'.log = w.log ++ l) (hn : ∀ c, .consumer ⟨c, .complete⟩ ∉ l)
    (hc : ∀ c, WritesTo w' c n ↔ WritesTo w c n) (he : (w'.engines n).info = (w.engines n).info) : Exactly n w w' :=
  ⟨hc, l, hl, ⟨fun ⟨c, hm, _⟩ => absurd hm (hn c), fun _ => he⟩⟩

theorem writesTo_list {w : World} {c : Nat} {l l' : LocoListConsumer} (h : w.consumers c = .list l) (n m : Nat) :
    WritesTo (w.setConsumer c (.list l')) m n ↔ WritesTo w m n := by
  unfold WritesTo World.setConsumer
  by_cases hm : m = c
  · subst hm
    simp [h]
  · simp [hm]

theorem exactly_frame (n : Nat) : World.Frame (Exactly n) where
  refl w := exactly_same [] (by simp) (by simp) (fun _ => Iff.rfl) rfl
  trans := by
    rintro a b c ⟨w1, l1, e1, h1⟩ ⟨w2, l2, e2, h2⟩
    refine ⟨fun x => (w2 x).trans (w1 x), l1 ++ l2, by rw [e2, e1, List.append_assoc], ?_, ?_⟩
    · intro hc
      by_cases hb : CompletedIn b l2 n
      · rw [h2.1 hb]
        by_cases ha : CompletedIn a l1 n
        · rw [h1.1 ha]
        · rw [h1.2 ha]
      · rw [h2.2 hb]
        refine h1.1 ?_
        obtain ⟨x, hm, hx⟩ := hc
        rcases List.mem_append.mp hm with hm | hm
        · exact ⟨x, hm, hx⟩
        · exact absurd ⟨x, hm, (w1 x).mpr hx⟩ hb
    · intro hc
      rw [h2.2 (fun ⟨x, hm, hx⟩ => hc ⟨x, List.mem_append_right _ hm, (w1 x).mp hx⟩),
        h1.2 (fun ⟨x, hm, hx⟩ => hc ⟨x, List.mem_append_left _ hm, hx⟩)]
  parser w m p := exactly_same [] (by simp [World.setParser]) (by simp) (fun _ => Iff.rfl) rfl
  station w s := exactly_same [] (by simp) (by simp) (fun _ => Iff.rfl) rfl
  call w c := exactly_same [.call c] rfl (by simp) (fun _ => Iff.rfl) rfl
  consumer := by
    intro w w' c h
    have ends : ∀ {α : Type} (f : α → Seen) (es : List (EndCall α)) (x : Nat), .consumer ⟨x, .complete⟩ ∉ World.endLog c.consumer f es := by
      intro α f es x hm
      simp only [World.endLog, List.mem_map] at hm
      obtain ⟨_, _, hm⟩ := hm
      cases hm
    have other : ∀ (l : List LogEntry), (∀ x, .consumer ⟨x, .complete⟩ ∉ l) → c.action ≠ .complete → ∀ x, LogEntry.consumer ⟨x, .complete⟩ ∉ [.consumer c] ++ l := by
      intro l hl hc x hm
      rcases List.mem_append.mp hm with hm | hm
      · have := List.mem_singleton.mp hm
        injection this with this
        exact hc (by rw [← this])
      · exact hl x hm
    rcases World.callConsumer_cases h with ⟨l, s, k, v, es, h1, h2, h3, rfl⟩ | ⟨l, es, es', h1, h2, h3, rfl⟩ | ⟨l, es', h1, h2, h3, rfl⟩ |
      ⟨l, s, k, v, l', h1, h2, h3, rfl⟩ | ⟨l, l', es', h1, h2, h3, rfl⟩ | ⟨l, l', es', h1, h2, h3, rfl⟩ | ⟨h1, rfl⟩
    · refine exactly_same ([.consumer c] ++ []) rfl (other [] (by simp) (by rw [h2]; intro hh; cases hh)) (fun _ => Iff.rfl) ?_
      unfold LocoConsumer.consumeConfigData at h3
      obtain ⟨r, -, h3⟩ := bind_ok h3
      cases r with
      | none => cases h3; rfl
      | some m =>
        obtain ⟨e, h4, h3⟩ := bind_ok h3
        cases h3
        show (Engines.set w.engines m e n).info = _
        unfold Engines.set
        split
        · next he => rw [he]; exact consumeOn_info h4
        · rfl
    · refine ⟨fun _ => Iff.rfl, [.consumer c] ++ World.endLog c.consumer .engine es', by simp [World.logAll], ?_⟩
      have hx : ∀ x, LogEntry.consumer ⟨x, .complete⟩ ∈ [LogEntry.consumer c] ++ World.endLog c.consumer .engine es' ↔ x = c.consumer := by
        intro x
        constructor
        · intro hm
          rcases List.mem_append.mp hm with hm | hm
          · have := List.mem_singleton.mp hm
            injection this with this
            rw [← this]
          · exact absurd hm (ends _ _ _)
        · rintro rfl
          exact List.mem_append_left _ (List.mem_singleton.mpr (by rw [← h2]))
      have hcomp : CompletedIn w ([LogEntry.consumer c] ++ World.endLog c.consumer .engine es') n ↔ l.currentEngine = .obj n := by
        constructor
        · rintro ⟨x, hm, l', e1, e2⟩
          rw [(hx x).mp hm, h1] at e1
          cases e1
          exact e2
        · intro he
          exact ⟨c.consumer, (hx _).mpr rfl, l, h1, he⟩
      rw [hcomp]
      unfold LocoConsumer.setStreamComplete at h3
      obtain ⟨r, hr, h3⟩ := bind_ok h3
      cases hp : l.currentEngine with
      | uninit => rw [hp] at hr; cases hr
      | null =>
        rw [hp] at hr
        cases hr
        cases h3
        exact ⟨fun hh => (by cases hh), fun _ => rfl⟩
      | obj m =>
        rw [hp] at hr
        cases hr
        obtain ⟨_, -, h3⟩ := bind_ok h3
        obtain ⟨cb, -, h3⟩ := bind_ok h3
        cases h3
        show (_ → (Engines.set w.engines m _ n).info = _) ∧ (_ → (Engines.set w.engines m _ n).info = _)
        unfold Engines.set
        constructor
        · intro hh
          injection hh with hh
          rw [if_pos hh.symm, hh]
          rfl
        · intro hh
          rw [if_neg (fun e => hh (by rw [e]))]
    · exact exactly_same ([.consumer c] ++ World.endLog c.consumer (fun _ => .nothing) es') (by simp [World.logAll])
        (other _ (ends _ _) (by rw [h2]; intro hh; cases hh)) (fun _ => Iff.rfl) rfl
    · exact exactly_same ([.consumer c] ++ []) rfl (other [] (by simp) (by rw [h2]; intro hh; cases hh)) (writesTo_list (w := w.logAll [.consumer c]) h1 n)
        rfl
    · refine ⟨writesTo_list (w := w.logAll [.consumer c]) h1 n, [.consumer c] ++ World.endLog c.consumer .list es',
        by simp [World.logAll, World.setConsumer], ?_, fun _ => rfl⟩
      rintro ⟨x, hm, l'', e1, -⟩
      rcases List.mem_append.mp hm with hm | hm
      · have := List.mem_singleton.mp hm
        injection this with this
        rw [show x = c.consumer by rw [← this], h1] at e1
        cases e1
      · exact absurd hm (ends _ _ _)
    · exact exactly_same ([.consumer c] ++ World.endLog c.consumer .list es') (by simp [World.logAll, World.setConsumer])
        (other _ (ends _ _) (by rw [h2]; intro hh; cases hh)) (writesTo_list (w := w.logAll [.consumer c]) h1 n) rfl
    · refine ⟨fun _ => Iff.rfl, [.consumer c], rfl, ?_, fun _ => rfl⟩
      rintro ⟨x, hm, l', e1, -⟩
      have := List.mem_singleton.mp hm
      injection this with this
      rw [show x = c.consumer by rw [← this], h1] at e1
      cases e1

/-- C99. One call: an engine becomes completely known if a consumer that writes to it is told that its stream is complete; giving it a name
makes it known by name only; and its name and what is known of it change in no other way. -/
theorem C99_step (w w' : World) (op : Op) (n : Nat) (h : w.step op = .ok w') (ho : ¬Overwrites n op) :
    ∃ l, w'.log = w.log ++ l ∧ (GivesName n op → l = [] ∧ (w'.engines n).info.availability = .NAME_KNOWN) ∧
      (¬GivesName n op →
        (CompletedIn w l n → (w'.engines n).info = { (w.engines n).info with availability := .FULL_DETAILS }) ∧
        (¬CompletedIn w l n → (w'.engines n).info = (w.engines n).info)) := by
  cases hown : op.isOwn with
  | false =>
    obtain ⟨-, l, e1, e2⟩ := (exactly_frame n).step hown h
    refine ⟨l, e1, ?_, fun _ => e2⟩
    rintro ⟨name, rfl⟩
    cases hown
  | true =>
    have none : ∀ (l : List LogEntry), l = [] → ¬CompletedIn w l n := by
      rintro l rfl ⟨c, hm, -⟩
      cases hm
    cases op <;> first | (cases hown; done) | skip
    case setName e name =>
      obtain ⟨l, h1, h⟩ := bind_ok h
      cases h
      refine ⟨[], by simp, ?_, ?_⟩
      · rintro ⟨nm, hh⟩
        injection hh with e1 e2
        subst e1
        refine ⟨rfl, ?_⟩
        show (Engines.set w.engines e l e).info.availability = _
        unfold Engines.set
        rw [if_pos rfl]
        unfold Locomotive.setName at h1
        obtain ⟨m, -, h1⟩ := bind_ok h1
        cases h1
        rfl
      · intro hne
        refine ⟨fun hh => absurd hh (none [] rfl), fun _ => ?_⟩
        show (Engines.set w.engines e l n).info = _
        unfold Engines.set
        rw [if_neg (fun hh => hne ⟨name, by rw [hh]⟩)]
    case assignEngine e l =>
      cases h
      refine ⟨[], by simp, fun ⟨_, hh⟩ => (by cases hh), fun _ => ⟨fun hh => absurd hh (none [] rfl), fun _ => ?_⟩⟩
      show (Engines.set w.engines e l n).info = _
      unfold Engines.set
      rw [if_neg (fun hh => ho ⟨l, by rw [hh]⟩)]
    all_goals
      refine ⟨[], ?_, fun ⟨_, hh⟩ => (by cases hh), fun _ => ⟨fun hh => absurd hh (none [] rfl), fun _ => ?_⟩⟩ <;>
      · simp only [World.step] at h
        split at h <;> cases h <;> simp [World.setConsumer]

/-- A call of a callback that neither names nor overwrites the engine, and does not change where consumers write. -/
def Discreet (n : Nat) (op : Op) : Prop := ¬GivesName n op ∧ ¬Overwrites n op ∧ ∀ c e, op ≠ .setEngine c e

theorem exactly_own {n : Nat} {w w' : World} {op : Op} (ho : op.isOwn = true) (hd : Discreet n op) (h : w.step op = .ok w') : Exactly n w w' := by
  cases op <;> first | (cases ho; done) | skip
  case setName e name =>
    obtain ⟨l, h1, h⟩ := bind_ok h
    cases h
    refine exactly_same [] (by simp) (by simp) (fun _ => Iff.rfl) ?_
    show (Engines.set w.engines e l n).info = _
    unfold Engines.set
    rw [if_neg (fun hh => hd.1 ⟨name, by rw [hh]⟩)]
  case assignEngine e l =>
    cases h
    refine exactly_same [] (by simp) (by simp) (fun _ => Iff.rfl) ?_
    show (Engines.set w.engines e l n).info = _
    unfold Engines.set
    rw [if_neg (fun hh => hd.2.1 ⟨l, by rw [hh]⟩)]
  case setEngine c e => exact absurd rfl (hd.2.2 c e)
  case setEndCallback c cb =>
    simp only [World.step] at h
    split at h
    · next l hx =>
      cases h
      refine exactly_same [] (by simp [World.setConsumer]) (by simp) (fun m => ?_) rfl
      unfold WritesTo World.setConsumer
      by_cases hm : m = c
      · subst hm
        simp [hx]
      · simp [hm]
    · next l hx => cases h; exact exactly_same [] (by simp [World.setConsumer]) (by simp) (writesTo_list hx n) rfl
    · cases h; exact (exactly_frame n).refl _
  all_goals
    simp only [World.step] at h
    split at h
    · next l hx => cases h; exact exactly_same [] (by simp [World.setConsumer]) (by simp) (writesTo_list hx n) rfl
    · cases h; exact (exactly_frame n).refl _

/-- C99, one call, with callbacks that call back. They may call everything, except naming or overwriting the engine and changing where
consumers write. -/
theorem C99_stepN (P : Program) (depth n : Nat) (hP : ∀ u e, ∀ op ∈ P u e, Discreet n op) (w w' : World) (op : Op)
    (h : (World.stepN P (World.nested P depth) w op).Returns w') (ho : ¬Overwrites n op) :
    ∃ l, w'.log = w.log ++ l ∧ (GivesName n op → l = [] ∧ (w'.engines n).info.availability = .NAME_KNOWN) ∧
      (¬GivesName n op →
        (CompletedIn w l n → (w'.engines n).info = { (w.engines n).info with availability := .FULL_DETAILS }) ∧
        (¬CompletedIn w l n → (w'.engines n).info = (w.engines n).info)) := by
  cases hown : op.isOwn with
  | true =>
    refine C99_step w w' op n ?_ ho
    cases op <;> first | (cases hown; done) | exact returns_lift.mp h
  | false =>
    have hI : World.Steady (Discreet n) (Exactly n w) := (exactly_frame n).steady (fun _ _ _ => exactly_own) w
    have hop : Discreet n op := by
      refine ⟨?_, ho, ?_⟩
      · rintro ⟨_, rfl⟩; cases hown
      · rintro c e rfl; cases hown
    obtain ⟨-, l, e1, e2⟩ := keeps_returns (World.stepN_steady hI (World.react_steady hI hP depth) w op hop ((exactly_frame n).refl w)) h
    exact ⟨l, e1, fun hg => absurd hg hop.1, fun _ => e2⟩

theorem learnt_of_steps {S : World → Op → World → Prop} {n : Nat}
    (hS : ∀ {w w' : World} {op : Op}, S w op w' → ¬Overwrites n op →
      ∃ l, w'.log = w.log ++ l ∧ (GivesName n op → l = [] ∧ (w'.engines n).info.availability = .NAME_KNOWN) ∧
        (¬GivesName n op →
          (CompletedIn w l n → (w'.engines n).info = { (w.engines n).info with availability := .FULL_DETAILS }) ∧
          (¬CompletedIn w l n → (w'.engines n).info = (w.engines n).info)))
    (hd : ∀ {w op u v}, S w op u → S w op v → u = v)
    {w w' : World} {ops : List Op} (h : Went S w ops w') (ho : ∀ op ∈ ops, ¬Overwrites n op) : Known w' n ↔ Learnt S w ops n := by
  induction h with
  | nil w =>
    constructor
    · exact fun hk => .inl ⟨hk, fun _ hm => by cases hm⟩
    · rintro (⟨hk, -⟩ | ⟨before, op, later, u, u', l, e, -⟩)
      · exact hk
      · cases before <;> cases e
  | @cons w v w'' op ops h1 h2 ih =>
    obtain ⟨l, e1, e2, e3⟩ := hS h1 (ho op (List.mem_cons_self ..))
    rw [ih (fun x hx => ho x (List.mem_cons_of_mem _ hx))]
    constructor
    · rintro (⟨hk, hn⟩ | ⟨before, x, later, u, u', l', e, r1, r2, r3, r4, r5⟩)
      · by_cases hg : GivesName n op
        · have := (e2 hg).2
          unfold Known at hk
          rw [this] at hk
          cases hk
        · by_cases hc : CompletedIn w l n
          · exact .inr ⟨[], op, ops, w, v, l, rfl, .nil w, h1, e1, hc, hn⟩
          · refine .inl ⟨?_, fun x hx => ?_⟩
            · unfold Known at hk ⊢
              rw [← (e3 hg).2 hc]
              exact hk
            · rcases List.mem_cons.mp hx with rfl | hx
              · exact hg
              · exact hn x hx
      · exact .inr ⟨op :: before, x, later, u, u', l', by rw [e]; rfl, .cons h1 r1, r2, r3, r4, r5⟩
    · rintro (⟨hk, hn⟩ | ⟨before, x, later, u, u', l', e, r1, r2, r3, r4, r5⟩)
      · refine .inl ⟨?_, fun x hx => hn x (List.mem_cons_of_mem _ hx)⟩
        have hg := hn op (List.mem_cons_self ..)
        unfold Known at hk ⊢
        by_cases hc : CompletedIn w l n
        · rw [(e3 hg).1 hc]
        · rw [(e3 hg).2 hc]
          exact hk
      · cases before with
        | nil =>
          cases e
          cases r1
          cases hd h1 r2
          have : l' = l := List.append_cancel_left (r3.symm.trans e1)
          subst this
          have hg : ¬GivesName n op := by
            intro hg
            have := (e2 hg).1
            subst this
            obtain ⟨c, hm, -⟩ := r4
            cases hm
          refine .inl ⟨?_, r5⟩
          unfold Known
          rw [(e3 hg).1 r4]
        | cons y before =>
          cases e
          cases r1 with
          | cons q1 q2 =>
            cases hd h1 q1
            exact .inr ⟨before, x, later, u, u', l', rfl, q2, r2, r3, r4, r5⟩

theorem went_run {w w' : World} {ops : List Op} (h : w.run ops = .ok w') : Went (fun w op u => w.step op = .ok u) w ops w' := by
  induction ops generalizing w with
  | nil => cases h; exact .nil _
  | cons op ops ih =>
    rw [World.run_cons] at h
    obtain ⟨v, h1, h2⟩ := bind_ok h
    exact .cons h1 (ih h2)

theorem went_runN {P : Program} {depth : Nat} {w w' : World} {ops : List Op} (h : (World.runN P depth w ops).Returns w') :
    Went (fun w op u => (World.stepN P (World.nested P depth) w op).Returns u) w ops w' := by
  induction ops generalizing w with
  | nil => cases World.returns_pure.mp h; exact .nil _
  | cons op ops ih =>
    obtain ⟨v, h1, h2⟩ := returns_bind.mp h
    exact .cons h1 (ih h2)

/-- C99. In every history in which the application does not overwrite the engine: at the end it is completely known, exactly if at some
point a consumer that wrote to it was told that its stream is complete, or it was known at the beginning, and it has not been given a name
since. -/
theorem C99_history (w w' : World) (ops : List Op) (n : Nat) (h : w.run ops = .ok w') (ho : ∀ op ∈ ops, ¬Overwrites n op) :
    Known w' n ↔ Learnt (fun w op u => w.step op = .ok u) w ops n :=
  learnt_of_steps (fun h ho => C99_step _ _ _ n h ho) (fun h k => by rw [h] at k; cases k; rfl) (went_run h) ho

/-- C99, with callbacks that call back, but neither name nor overwrite the engine and do not change where consumers write. -/
theorem C99_nested (P : Program) (depth n : Nat) (hP : ∀ u e, ∀ op ∈ P u e, Discreet n op) (w w' : World) (ops : List Op)
    (h : (World.runN P depth w ops).Returns w') (ho : ∀ op ∈ ops, ¬Overwrites n op) :
    Known w' n ↔ Learnt (fun w op u => (World.stepN P (World.nested P depth) w op).Returns u) w ops n :=
  learnt_of_steps (fun h ho => C99_stepN P depth n hP _ _ _ h ho) (fun h k => by cases Option.some.inj (h.symm.trans k); rfl) (went_runN h) ho

/-- C99. What `isValid` of a consumer says at the end of a history. -/
theorem C99_isValid (w w' : World) (ops : List Op) (n : Nat) (h : w.run ops = .ok w') (ho : ∀ op ∈ ops, ¬Overwrites n op) (c : LocoConsumer)
    (hc : c.currentEngine = .obj n) :
    ∃ b, c.isValid w'.engines = .ok b ∧ (b = true ↔ Learnt (fun w op u => w.step op = .ok u) w ops n) := by
  obtain ⟨b, h1, h2⟩ := (C99_valid c w').1 n hc
  exact ⟨b, h1, h2.trans (C99_history w w' ops n h ho)⟩

/-- A world in which consumer 1 writes to engine 0 and parser 0 gives data to consumer 1. -/
def validCase : Res World := do
  let t ← TextParser.construct (List.replicate 31 0xAA#8) (List.replicate 11 0xAA#8) (List.replicate 11 0xAA#8) (List.replicate 26 0xAA#8)
  World.run
    { pf := ⟨64⟩, station := {}, parsers := fun _ => StreamParser.construct t, consumers := fun _ => .loco LocoConsumer.construct,
      engines := fun _ => Locomotive.construct (List.replicate 9 0xAA#8), log := [] }
    [.setEndCallback 1 (some 7), .setEngine 1 (some 0), .setName 0 (lit "98 1001")]

/-- A stream of 8 bytes with the right or a wrong checksum. -/
def validStream (crc : Byte) : List Op :=
  [.parserStart 0 (some 1), .parserStartStream 0, .parserAdd 0 { dlc := 6, b3 := 8, b4 := 0x31, b5 := crc }, .parserAdd 0 { dlc := 8 }]

/-- What `isValid` says of the consumer at the end. -/
def validAfter (ops : List Op) : Res Bool := do
  let w ← validCase
  let w ← w.run ops
  match w.consumers 1 with
  | .loco c => c.isValid w.engines
  | _ => .ok false

/-- Not valid at first, valid after a stream, not valid after a stream with a wrong checksum, after giving a name, or before; and the
consumer that was never given an engine has undefined behaviour. -/
example : validAfter [] = .ok false ∧ validAfter (validStream 0x3E) = .ok true ∧ validAfter (validStream 0x3F) = .ok false ∧
    validAfter (validStream 0x3E ++ [.setName 0 (lit "V 100")]) = .ok false ∧
    validAfter (validStream 0x3E ++ validStream 0x3F) = .ok true ∧ validAfter [.setEngine 1 none] = .ok false ∧
    LocoConsumer.construct.isValid (fun _ => Locomotive.construct []) = .error .uninitRead := by
  refine ⟨?_, ?_, ?_, ?_, ?_, ?_, rfl⟩ <;> decide +kernel

/-- Callbacks that end the request of the station, name another engine and start the parser again when a stream ends. -/
def validProgram : Program := fun _ e =>
  match e with
  | .streamEnd .. => [.finish, .setName 5 (lit "V 100"), .parserStart 3 (some 1), .parserReset 0]
  | _ => []

/-- C99 with callbacks that call back: they are discreet about engine 0, which is completely known after its stream. -/
example : (∀ u e, ∀ op ∈ validProgram u e, Discreet 0 op) ∧
    (match validCase with
    | .error _ => none
    | .ok w => match (World.runN validProgram 2 w (validStream 0x3E)).run with
      | some (.ok u) => some ((u.engines 0).info.availability, (u.engines 5).info.availability)
      | _ => none) = some (.FULL_DETAILS, .NAME_KNOWN) := by
  refine ⟨fun u e op hop => ?_, by decide +kernel⟩
  unfold validProgram at hop
  split at hop
  · simp only [List.mem_cons, List.not_mem_nil, or_false] at hop
    rcases hop with rfl | rfl | rfl | rfl <;>
      exact ⟨fun ⟨_, h⟩ => (by cases h), fun ⟨_, h⟩ => (by cases h), fun _ _ h => (by cases h)⟩
  · cases hop

end RR32
