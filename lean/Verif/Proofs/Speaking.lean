import Verif.Model.Speaking
import Verif.Spec.Output
import Verif.Proofs.Output
import Verif.Proofs.Departing

/-! # Callbacks that call back, with and without what is printed -/

set_option autoImplicit false

namespace RR32

/-- Nothing about the contents of streams is logged. -/
def LogConfig.Quiet (g : LogConfig) : Prop := g.packets = false ∧ g.events = false ∧ g.all = false

/-- A computation that also prints, beside the same without the printing: it exhausts the stack with it, returns only if that returns, and, if
`quiet`, goes wrong only if that does. -/
def Run.Shadow {α β : Type} (quiet : Prop) (f : α → β) (x : Run α) (y : Run β) : Prop :=
  match x.run with
  | none => y.run = none
  | some (.ok a) => y.run = some (.ok (f a))
  | some (.error _) => quiet → ∃ e, y.run = some (.error e)

theorem run_bind {α β : Type} {y : Run α} {G : α → Run β} {r : Option (Except Fault α)} (hr : y.run = r) :
    (y >>= G).run = Option.bind r (fun z => match z with | .ok a => (G a).run | .error e => some (.error e)) := by
  show Option.bind y.run _ = _
  rw [hr]
  cases r with
  | none => rfl
  | some z => cases z <;> rfl

section
variable {q : Prop}

theorem shadow_pure {α β : Type} {f : α → β} {a : α} {b : β} (h : f a = b) : (pure a : Run α).Shadow q f (pure b) := by
  subst h; rfl

theorem shadow_bind {α β α' β' : Type} {f : α → β} {g : α' → β'} {x : Run α} {y : Run β} {F : α → Run α'} {G : β → Run β'}
    (hx : x.Shadow q f y) (hF : ∀ a, (F a).Shadow q g (G (f a))) : (x >>= F).Shadow q g (y >>= G) := by
  unfold Run.Shadow at hx ⊢
  cases h : x.run with
  | none =>
    rw [h] at hx
    rw [run_bind h, run_bind hx]
    rfl
  | some r =>
    rw [h] at hx
    cases r with
    | ok a =>
      rw [run_bind h, run_bind hx]
      exact hF a
    | error e =>
      rw [run_bind h]
      intro hq
      obtain ⟨e', he⟩ := hx hq
      exact ⟨e', by rw [run_bind he]; rfl⟩

theorem shadow_lift_bind {α α' β' : Type} {g : α' → β'} {r : Res α} {F : α → Run α'} {G : α → Run β'}
    (hF : ∀ a, r = .ok a → (F a).Shadow q g (G a)) : (Run.lift r >>= F).Shadow q g (Run.lift r >>= G) := by
  cases r with
  | error e => exact fun _ => ⟨e, rfl⟩
  | ok a => exact hF a rfl

theorem shadow_foldlM {α α' β β' : Type} {f : β → β'} (F : β → α → Run β) (G : β' → α' → Run β') (t : α → α')
    (h : ∀ b a, (F b a).Shadow q f (G (f b) (t a))) (l : List α) (b : β) : (l.foldlM F b).Shadow q f ((l.map t).foldlM G (f b)) := by
  induction l generalizing b with
  | nil => exact shadow_pure rfl
  | cons x l ih =>
    rw [List.map_cons, List.foldlM_cons, List.foldlM_cons]
    exact shadow_bind (h b x) ih

/-- Printing something, which can go wrong only where the rest goes wrong. -/
theorem shadow_say {α β : Type} {f : α → β} {h : Desk} {t : Res (List Byte)} {F : Desk → Run α} {y : Run β}
    (ht : ∀ e, t = .error e → q → ∃ e', y.run = some (.error e'))
    (hF : ∀ s, t = .ok s → (F { h with out := h.out ++ s }).Shadow q f y) : (h.say t >>= F).Shadow q f y := by
  cases t with
  | error e => exact fun hq => ht e rfl hq
  | ok s => exact hF s rfl

theorem shadow_wrong {α : Type} {r : Res α} {β : Type} {G : α → Run β} (h : ∀ a, r ≠ .ok a) : ∃ e, (Run.lift r >>= G).run = some (.error e) := by
  cases r with
  | error e => exact ⟨e, rfl⟩
  | ok a => exact absurd rfl (h a)

end

namespace Desk

open World

section
variable {lg : LogConfig} {P : Program} {k : Desk → Op → Run Desk} {k' : World → Op → Run World}
  (hk : ∀ h op, (k h op).Shadow lg.Quiet (·.w) (k' h.w op))
include hk

theorem react_shadow (h : Desk) (e : LogEntry) : (react P k h e).Shadow lg.Quiet (·.w) (World.react P k' h.w e) := by
  have := shadow_foldlM (f := Desk.w) k k' id (fun b a => hk b a) (P h.w e) h
  rwa [List.map_id] at this

theorem tell_shadow (h : Desk) (e : LogEntry) : (tell P k h e).Shadow lg.Quiet (·.w) (World.tell P k' h.w e) :=
  react_shadow hk _ e

theorem callConsumer_shadow (h : Desk) (c : ConsumerCall) :
    (callConsumer lg P k h c).Shadow lg.Quiet (·.w) (callConsumerN P k' h.w c) := by
  refine shadow_say ?_ ?_
  · intro e he hq
    refine shadow_wrong (fun v hv => ?_)
    obtain ⟨t, ht⟩ := (prints_callConsumer lg).good h.w c v hv (fun hg => (by rw [hq.2.1] at hg; cases hg))
    unfold callConsumerO at ht
    rw [he] at ht
    cases ht
  · intro s _
    refine shadow_lift_bind ?_
    intro v _
    have := shadow_foldlM (f := Desk.w) (react P k) (World.react P k') id (fun b a => react_shadow hk b a)
      ((v.log.drop h.w.log.length).filter h.w.reachesApp) (({ h with out := h.out ++ s } : Desk).put v)
    rwa [List.map_id] at this

theorem tellConsumers_shadow (h : Desk) (cs : List ConsumerCall) :
    (tellConsumers lg P k h cs).Shadow lg.Quiet (·.w) (World.tellConsumers P k' h.w cs) := by
  have := shadow_foldlM (f := Desk.w) (callConsumer lg P k) (callConsumerN P k') id (fun b a => callConsumer_shadow hk b a) cs h
  rwa [List.map_id] at this

theorem tellEvents_shadow (h : Desk) (evs : List ParseEvent) :
    (tellEvents lg P k h evs).Shadow lg.Quiet (·.w) (World.tellEvents P k' h.w evs) := tellConsumers_shadow hk h _

theorem findToken_shadow (h : Desk) (n o : Nat) (cs : List Byte) (d : TextParser.Dest) :
    (findToken lg P k h n o cs d).Shadow lg.Quiet (fun x => (x.1.w, x.2)) (findTokenN P k' h.w n o cs d) := by
  refine shadow_lift_bind ?_
  rintro ⟨t, evs, r⟩ -
  exact shadow_bind (tellEvents_shadow hk (h.setText n t) evs) (fun g => shadow_pure rfl)

theorem processStep_shadow (h : Desk) (n o : Nat) :
    (processStep lg P k h n o).Shadow lg.Quiet (fun x => (x.1.w, x.2)) (processStepN P k' h.w n o) := by
  have plain : (do
        let (t, evs, consumed, stop) ← Run.lift ((h.text n).processStep o)
        let h ← tellEvents lg P k (h.setText n t) evs
        pure (h, consumed, stop) : Run (Desk × Nat × Bool)).Shadow lg.Quiet (fun x => (x.1.w, x.2)) (do
        let (t, evs, consumed, stop) ← Run.lift ((h.w.text n).processStep o)
        let w ← World.tellEvents P k' (h.w.setText n t) evs
        pure (w, consumed, stop) : Run (World × Nat × Bool)) := by
    refine shadow_lift_bind ?_
    rintro ⟨t, evs, c, s⟩ -
    exact shadow_bind (tellEvents_shadow hk (h.setText n t) evs) (fun g => shadow_pure rfl)
  have hs : (h.text n).state = (h.w.text n).state := rfl
  unfold processStep processStepN
  rw [hs]
  cases (h.w.text n).state with
  | LOOKING_FOR_KEY_OR_SECTION_START => exact plain
  | PARSING_SECTION => exact plain
  | LOOKING_FOR_VALUE_START => exact plain
  | ERROR => exact plain
  | PARSING_KEY =>
    refine shadow_bind (findToken_shadow hk h n _ _ _) ?_
    rintro ⟨g, r⟩
    dsimp only
    split
    · split
      · exact shadow_pure rfl
      · split
        · refine shadow_lift_bind ?_
          intro value _
          refine shadow_bind (tellEvents_shadow hk (g.setText n { g.text n with value := value }) _) ?_
          intro g2
          refine shadow_lift_bind ?_
          intro key _
          exact shadow_pure rfl
        · exact shadow_pure rfl
    · exact shadow_pure rfl
  | PARSING_VALUE =>
    refine shadow_bind (findToken_shadow hk h n _ _ _) ?_
    rintro ⟨g, r⟩
    dsimp only
    split
    · refine shadow_bind (tellEvents_shadow hk g _) ?_
      intro g2
      refine shadow_lift_bind ?_
      intro key _
      refine shadow_lift_bind ?_
      intro value _
      exact shadow_pure rfl
    · exact shadow_pure rfl

theorem processLoop_shadow (fuel : Nat) : ∀ (h : Desk) (n o : Nat),
    (processLoop lg P k fuel h n o).Shadow lg.Quiet (fun x => (x.1.w, x.2)) (processLoopN P k' fuel h.w n o) := by
  induction fuel with
  | zero => intro h n o; exact fun _ => ⟨_, rfl⟩
  | succ fuel ih =>
    intro h n o
    unfold processLoop processLoopN
    have hs : (h.text n).buffer.len = (h.w.text n).buffer.len := rfl
    rw [hs]
    split
    · refine shadow_bind (processStep_shadow hk h n o) ?_
      rintro ⟨g, c, s⟩
      dsimp only
      split
      · exact shadow_pure rfl
      · exact ih g n c
    · exact shadow_pure rfl

theorem reportParseError_shadow (h : Desk) (n : Nat) :
    (reportParseError lg P k h n).Shadow lg.Quiet (·.w) (reportParseErrorN P k' h.w n) := by
  refine shadow_lift_bind ?_
  rintro ⟨t, evs⟩ -
  exact tellEvents_shadow hk (h.setText n t) evs

theorem addLoop_shadow (fuel : Nat) : ∀ (h : Desk) (n : Nat) (input : BufferManager) (i : Nat),
    (addLoop lg P k fuel h n input i).Shadow lg.Quiet (·.w) (addLoopN P k' fuel h.w n input i) := by
  induction fuel with
  | zero => intro h n input i; exact fun _ => ⟨_, rfl⟩
  | succ fuel ih =>
    intro h n input i
    unfold addLoop addLoopN
    have hs : h.text n = h.w.text n := rfl
    rw [hs]
    split
    · split
      · exact reportParseError_shadow hk h n
      · refine shadow_lift_bind ?_
        rintro ⟨buffer, m⟩ -
        refine shadow_bind (processLoop_shadow hk _ (h.setText n { h.text n with buffer := buffer }) n 0) ?_
        rintro ⟨g, c⟩
        dsimp only
        refine shadow_lift_bind ?_
        intro buffer _
        exact ih (g.setText n { g.text n with buffer := buffer }) n input _
    · exact shadow_pure rfl

theorem addText_shadow (h : Desk) (n : Nat) (input : BufferManager) :
    (addText lg P k h n input).Shadow lg.Quiet (·.w) (addTextN P k' h.w n input) := by
  unfold addText addTextN
  have hs : h.text n = h.w.text n := rfl
  rw [hs]
  split
  · exact reportParseError_shadow hk h n
  · exact addLoop_shadow hk _ h n input 0

theorem parserReset_shadow (h : Desk) (n : Nat) :
    (parserReset lg P k h n).Shadow lg.Quiet (·.w) (parserResetN P k' h.w n) := by
  refine shadow_bind (tellConsumers_shadow hk h _) ?_
  intro g
  refine shadow_lift_bind ?_
  intro p _
  exact shadow_pure rfl

theorem parserData_shadow (h : Desk) (n : Nat) (d : Data) :
    (parserData lg P k h n d).Shadow lg.Quiet (·.w) (parserDataN P k' h.w n d) := by
  refine shadow_lift_bind ?_
  intro crc _
  refine shadow_bind (addText_shadow hk (h.setParser n { h.w.parsers n with
      remaining := (h.w.parsers n).remaining - d.dlc.zeroExtend 32
      crc := some ((d.bytes.take d.dlc.toNat).foldl Crc.updateCrc crc) }) n _) ?_
  intro g
  refine shadow_say ?_ ?_
  · intro e he hq
    unfold StreamParser.tailText at he
    rw [hq.1, hq.2.1] at he
    repeat' split at he
    all_goals cases he
  intro s _
  dsimp only
  split
  · refine shadow_lift_bind ?_
    intro crc _
    split
    · exact tellConsumers_shadow hk (({ g with out := g.out ++ s } : Desk).setParser n { g.w.parsers n with state := .STREAM_DONE }) _
    · exact tellConsumers_shadow hk (({ g with out := g.out ++ s } : Desk).setParser n { g.w.parsers n with state := .IDLE }) _
  · exact shadow_pure rfl

theorem parserAdd_shadow (h : Desk) (n : Nat) (d : Data) :
    (parserAdd lg P k h n d).Shadow lg.Quiet (·.w) (parserAddN P k' h.w n d) := by
  refine shadow_say ?_ ?_
  · intro e he hq
    exfalso
    unfold StreamParser.headText at he
    rw [hq.1] at he
    split at he
    · split at he <;> cases he
    · split at he
      · rename_i hd
        obtain ⟨t, ht⟩ : ∃ t, printIf lg.dump d.printAsText = .ok t := printIf_ok (printAsText_ok d (by rw [hd]; decide))
        rw [ht] at he; cases he
      · cases he
    · cases he
  intro s _
  unfold parserAddN
  dsimp only
  split
  · exact parserReset_shadow hk { h with out := h.out ++ s } n
  · split
    · exact parserData_shadow hk { h with out := h.out ++ s } n d
    · refine shadow_lift_bind ?_
      rintro ⟨p, calls⟩ -
      exact tellConsumers_shadow hk (({ h with out := h.out ++ s } : Desk).setParser n p) calls

theorem runCall_shadow (h : Desk) (c : Call) : (runCall lg P k h c).Shadow lg.Quiet (·.w) (runCallN P k' h.w c) := by
  cases c with
  | cfgStart n => exact shadow_pure rfl
  | cfgAdd n d => exact parserAdd_shadow hk h n d
  | cfgReset n => exact parserReset_shadow hk h n
  | tx cb f =>
    unfold runCall runCallN
    dsimp only
    cases h.w.station.callbacks.tx with
    | none => exact fun _ => ⟨_, rfl⟩
    | some cb => exact tell_shadow hk h _
  | _ => exact tell_shadow hk h _

theorem runCalls_shadow (h : Desk) (r : Res (List Call)) :
    (runCalls lg P k h r).Shadow lg.Quiet (·.w) (runCallsN P k' h.w r) := by
  refine shadow_lift_bind ?_
  intro cs _
  have := shadow_foldlM (f := Desk.w) (runCall lg P k) (runCallN P k') id (fun b a => runCall_shadow hk b a) cs h
  rwa [List.map_id] at this

theorem finish_shadow (h : Desk) : (finish lg P k h).Shadow lg.Quiet (·.w) (finishN P k' h.w) := by
  unfold finish finishN
  cases h.w.station.callbacks.configData with
  | none => exact shadow_pure rfl
  | some n => exact shadow_bind (parserReset_shadow hk h n) (fun g => shadow_pure rfl)

theorem send8_shadow (h : Desk) (id : Identifier) (bytes : List Byte) :
    (send8 lg P k h id bytes).Shadow lg.Quiet (·.w) (World.send8 P k' h.w id bytes) := runCalls_shadow hk h _

theorem requestEngine_shadow (h : Desk) (info : World → ShortInfo) (p : Option Nat) :
    (requestEngine lg P k h info p).Shadow lg.Quiet (·.w) (requestEngineN P k' h.w info p) := by
  unfold requestEngine requestEngineN
  split
  · exact shadow_pure rfl
  · split
    · exact shadow_pure rfl
    · refine shadow_bind (finish_shadow hk h) ?_
      intro g
      cases p with
      | none =>
        refine shadow_lift_bind (fun _ _ => shadow_bind (send8_shadow hk (g.put (g.w.register none)) _ _) (fun g2 => ?_))
        refine shadow_lift_bind (fun l _ => shadow_lift_bind (fun _ _ => shadow_bind (send8_shadow hk g2 _ _) (fun g3 => ?_)))
        simp only [decide_eq_true_eq]
        exact shadow_lift_bind (fun _ _ => send8_shadow hk g3 _ _)
      | some n =>
        refine shadow_lift_bind (fun _ _ => shadow_bind (send8_shadow hk
          ((g.put (g.w.register (some n))).setParser n ((g.w.register (some n)).parsers n).startStream) _ _) (fun g2 => ?_))
        refine shadow_lift_bind (fun l _ => shadow_lift_bind (fun _ _ => shadow_bind (send8_shadow hk g2 _ _) (fun g3 => ?_)))
        simp only [decide_eq_true_eq]
        exact shadow_lift_bind (fun _ _ => send8_shadow hk g3 _ _)

theorem handle_shadow (h : Desk) (f : CanFrame) :
    (handle lg P k h f).Shadow lg.Quiet (·.w) (runCallsN P k' h.w (h.w.station.HandlePacket h.w.processing f)) := by
  have key : lg.Quiet → ∀ e, h.w.handleText lg f = .error e →
      ∃ e', (runCallsN P k' h.w (h.w.station.HandlePacket h.w.processing f)).run = some (.error e') := by
    intro hq e he
    refine shadow_wrong (fun calls hc => ?_)
    obtain ⟨t, ht⟩ := handleText_ok lg (packetText_ok hc) (fun f' _ hg => (by rw [hq.2.2] at hg; cases hg))
    rw [ht] at he; cases he
  unfold handle
  split
  · refine shadow_say ?_ ?_
    · intro e he hq
      cases ht : h.w.handleText lg f with
      | error e' => exact key hq e' ht
      | ok t => rw [ht] at he; cases he
    · intro s _
      have h1 := runCalls_shadow (P := P) hk { h with out := h.out ++ s } (h.w.station.HandlePacket h.w.processing f)
      have h2 := shadow_bind (F := fun g : Desk => g.say (.ok (str "\n"))) (G := fun w => (pure w : Run World)) (g := Desk.w) h1 (fun g => rfl)
      rwa [bind_pure] at h2
  · exact shadow_say (fun e he hq => key hq e he) (fun s _ => runCalls_shadow hk { h with out := h.out ++ s } _)

theorem step_shadow (h : Desk) (op : Op) : (step lg P k h op).Shadow lg.Quiet (·.w) (stepN P k' h.w op) := by
  have plain : (do let w ← Run.lift (h.w.step op); pure (h.put w) : Run Desk).Shadow lg.Quiet (·.w) (Run.lift (h.w.step op)) := by
    cases h.w.step op with
    | error e => exact fun _ => ⟨_, rfl⟩
    | ok v => rfl
  cases op with
  | begin_ u cbs =>
    refine shadow_bind (finish_shadow hk h) ?_
    intro g
    generalize hr : g.w.step (.begin_ u cbs) = r
    cases r with
    | error e => exact fun _ => ⟨_, rfl⟩
    | ok w => rfl
  | requestEngineList off p =>
    refine shadow_bind (finish_shadow hk h) ?_
    intro g
    refine shadow_lift_bind ?_
    rintro ⟨s, calls⟩ -
    exact runCalls_shadow hk (g.put { g.w with station := s }) _
  | requestEngine e p => exact shadow_say (fun er he _ => (by
      obtain ⟨t, ht⟩ := opText_ok lg (w := h.w) (op := .requestEngine e p) (by intro f hf; cases hf)
      rw [ht] at he; cases he)) (fun s _ => requestEngine_shadow hk { h with out := h.out ++ s } _ p)
  | requestShortInfo i p => exact shadow_say (fun er he _ => (by
      obtain ⟨t, ht⟩ := opText_ok lg (w := h.w) (op := .requestShortInfo i p) (by intro f hf; cases hf)
      rw [ht] at he; cases he)) (fun s _ => requestEngine_shadow hk { h with out := h.out ++ s } _ p)
  | finish => exact finish_shadow hk h
  | abort => exact finish_shadow hk h
  | notifyReceived => exact finish_shadow hk h
  | handle f => exact handle_shadow hk h f
  | parserAdd n d => exact parserAdd_shadow hk h n d
  | parserReset n => exact parserReset_shadow hk h n
  | requestAllFunctions e => exact runCalls_shadow hk h _
  | requestDirection e => exact runCalls_shadow hk h _
  | sendDirection e d => exact runCalls_shadow hk h _
  | requestVelocity e => exact runCalls_shadow hk h _
  | sendVelocity e v => exact runCalls_shadow hk h _
  | requestFunction e f => exact runCalls_shadow hk h _
  | sendFunction e f v => exact runCalls_shadow hk h _
  | sendEmergencyStop e => exact runCalls_shadow hk h _
  | sendStop => exact runCalls_shadow hk h _
  | sendGo => exact runCalls_shadow hk h _
  | sendAccessory a p d pw => exact shadow_say (fun er he _ => (by
      obtain ⟨t, ht⟩ := opText_ok lg (w := h.w) (op := .sendAccessory a p d pw) (by intro f hf; cases hf)
      rw [ht] at he; cases he)) (fun s _ => runCalls_shadow hk { h with out := h.out ++ s } _)
  | sendPacket f => exact runCalls_shadow hk h _
  | _ => exact plain

end

theorem nested_shadow (lg : LogConfig) (P : Program) (depth : Nat) (h : Desk) (op : Op) :
    (nested lg P depth h op).Shadow lg.Quiet (·.w) (World.nested P depth h.w op) := by
  induction depth generalizing h op with
  | zero => rfl
  | succ depth ih => exact step_shadow ih h op

end Desk

end RR32
