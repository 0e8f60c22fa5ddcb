import Verif.Proofs.Departing

/-! # Callbacks that destroy objects: the same program without the destructions -/

set_option autoImplicit false

namespace RR32

theorem follows_pure {α β : Type} {f : α → β} {a : α} {b : β} (h : f a = b) : (pure a : RunD α).Follows f (pure b) := by
  subst h; rfl

theorem follows_lift {α : Type} (r : Res α) : (RunD.lift r).Follows id (Run.lift r) := by
  cases r <;> rfl

theorem follows_bind {α β α' β' : Type} {f : α → β} {g : α' → β'} {x : RunD α} {y : Run β} {F : α → RunD α'} {G : β → Run β'}
    (hx : x.Follows f y) (hF : ∀ a, (F a).Follows g (G (f a))) : (x >>= F).Follows g (y >>= G) := by
  have yb : ∀ r, y.run = r → (y >>= G).run = Option.bind r (fun z => match z with | .ok a => (G a).run | .error e => some (.error e)) := by
    intro r hr
    show Option.bind y.run _ = _
    rw [hr]
    cases r with
    | none => rfl
    | some z => cases z <;> rfl
  unfold RunD.Follows at hx ⊢
  cases h : x.run with
  | none =>
    rw [h] at hx
    rw [bind_gone h, yb _ hx]
    rfl
  | some r =>
    rw [h] at hx
    cases r with
    | ok a =>
      rw [bind_returns h, yb _ hx]
      exact hF a
    | error e =>
      cases e with
      | fault e => rw [bind_wrong h, yb _ hx]; rfl
      | dangling o => rw [bind_wrong h]; trivial

theorem follows_lift_bind {α α' β' : Type} {g : α' → β'} {r : Res α} {F : α → RunD α'} {G : α → Run β'}
    (hF : ∀ a, r = .ok a → (F a).Follows g (G a)) : (RunD.lift r >>= F).Follows g (Run.lift r >>= G) := by
  cases r with
  | error e => rfl
  | ok a => exact hF a rfl

theorem follows_use {α β : Type} {g : α → β} {h : Scene} {os : List Obj} {F : Unit → RunD α} {y : Run β} (hF : (F ()).Follows g y) :
    (h.use os >>= F).Follows g y := by
  cases hc : Out.check h.live os with
  | ok u =>
    have : (h.use os >>= F).run = (F ()).run := bind_returns (by show some (Out.check h.live os) = _; rw [hc])
    unfold RunD.Follows at hF ⊢
    rw [this]
    exact hF
  | error e =>
    have hd : ∃ o, e = .dangling o := by
      clear hF
      induction os with
      | nil => cases hc
      | cons o os ih =>
        unfold Out.check at hc
        split at hc
        · exact ih hc
        · cases hc; exact ⟨o, rfl⟩
    obtain ⟨o, rfl⟩ := hd
    have : (h.use os >>= F).run = some (.error (.dangling o)) := bind_wrong (by show some (Out.check h.live os) = _; rw [hc])
    unfold RunD.Follows
    rw [this]
    trivial

theorem follows_foldlM {α α' β β' : Type} {f : β → β'} (F : β → α → RunD β) (G : β' → α' → Run β') (t : α → α')
    (h : ∀ b a, (F b a).Follows f (G (f b) (t a))) (l : List α) (b : β) : (l.foldlM F b).Follows f ((l.map t).foldlM G (f b)) := by
  induction l generalizing b with
  | nil => exact follows_pure rfl
  | cons x l ih =>
    rw [List.map_cons, List.foldlM_cons, List.foldlM_cons]
    exact follows_bind (h b x) ih

namespace Scene

open World

/-- What a callback does follows what it does without the destructions. -/
theorem acts_follow {f : Scene → Act → RunD Scene} {g : World → Op → Run World} (hcall : ∀ h op, (f h (.call op)).Follows (·.w) (g h.w op))
    (hdest : ∀ h o, f h (.destroy o) = h.destroy o) (acts : List Act) (h : Scene) :
    (acts.foldlM f h).Follows (·.w) ((callsOf acts).foldlM g h.w) := by
  induction acts generalizing h with
  | nil => exact follows_pure rfl
  | cons a acts ih =>
    rw [List.foldlM_cons]
    cases a with
    | call op =>
      show RunD.Follows _ _ ((op :: callsOf acts).foldlM g h.w)
      rw [List.foldlM_cons]
      exact follows_bind (hcall h op) ih
    | destroy o =>
      rw [hdest]
      show RunD.Follows _ ((h.use [o] >>= fun _ => pure (h.drop o)) >>= _) _
      rw [bind_assoc]
      refine follows_use ?_
      rw [pure_bind]
      exact ih (h.drop o)

section
variable {P : ProgramD} {Q : Program} {k : List Obj → Scene → Act → RunD Scene} {k' : World → Op → Run World} (hP : P.Calls Q)
  (hcall : ∀ busy h op, (k busy h (.call op)).Follows (·.w) (k' h.w op)) (hdest : ∀ busy h o, k busy h (.destroy o) = h.destroy o)
include hP hcall hdest

theorem react_follows (busy : List Obj) (h : Scene) (e : LogEntry) : (react P k busy h e).Follows (·.w) (World.react Q k' h.w e) := by
  unfold react World.react
  rw [← hP busy h e]
  exact acts_follow (hcall busy) (hdest busy) _ _

theorem tell_follows (busy : List Obj) (h : Scene) (e : LogEntry) : (tell P k busy h e).Follows (·.w) (World.tell Q k' h.w e) :=
  react_follows hP hcall hdest busy _ e

theorem callConsumer_follows (busy : List Obj) (h : Scene) (c : ConsumerCall) :
    (callConsumer P k busy h c).Follows (·.w) (callConsumerN Q k' h.w c) := by
  refine follows_use (follows_lift_bind ?_)
  intro v _
  have := follows_foldlM (f := Scene.w) (react P k busy) (World.react Q k') id (fun b a => react_follows hP hcall hdest busy b a)
    ((v.log.drop h.w.log.length).filter h.w.reachesApp) (h.put v)
  rwa [List.map_id] at this

theorem tellConsumers_follows (busy : List Obj) (h : Scene) (cs : List ConsumerCall) :
    (tellConsumers P k busy h cs).Follows (·.w) (World.tellConsumers Q k' h.w cs) := by
  have := follows_foldlM (f := Scene.w) (callConsumer P k busy) (callConsumerN Q k') id (fun b a => callConsumer_follows hP hcall hdest busy b a) cs h
  rwa [List.map_id] at this

theorem tellEvents_follows (busy : List Obj) (h : Scene) (evs : List ParseEvent) :
    (tellEvents P k busy h evs).Follows (·.w) (World.tellEvents Q k' h.w evs) := tellConsumers_follows hP hcall hdest busy h _

theorem findToken_follows (busy : List Obj) (h : Scene) (n o : Nat) (cs : List Byte) (d : TextParser.Dest) :
    (findToken P k busy h n o cs d).Follows (fun x => (x.1.w, x.2)) (findTokenN Q k' h.w n o cs d) := by
  refine follows_lift_bind ?_
  rintro ⟨t, evs, r⟩ -
  exact follows_bind (tellEvents_follows hP hcall hdest busy (h.setText n t) evs) (fun g => follows_pure rfl)

theorem processStep_follows (busy : List Obj) (h : Scene) (n o : Nat) :
    (processStep P k busy h n o).Follows (fun x => (x.1.w, x.2)) (processStepN Q k' h.w n o) := by
  have plain : (do
        let (t, evs, consumed, stop) ← RunD.lift ((h.text n).processStep o)
        let h ← tellEvents P k busy (h.setText n t) evs
        pure (h, consumed, stop) : RunD (Scene × Nat × Bool)).Follows (fun x => (x.1.w, x.2)) (do
        let (t, evs, consumed, stop) ← Run.lift ((h.w.text n).processStep o)
        let w ← World.tellEvents Q k' (h.w.setText n t) evs
        pure (w, consumed, stop) : Run (World × Nat × Bool)) := by
    refine follows_lift_bind ?_
    rintro ⟨t, evs, c, s⟩ -
    exact follows_bind (tellEvents_follows hP hcall hdest busy (h.setText n t) evs) (fun g => follows_pure rfl)
  have hs : (h.text n).state = (h.w.text n).state := rfl
  unfold processStep processStepN
  rw [hs]
  cases (h.w.text n).state with
  | LOOKING_FOR_KEY_OR_SECTION_START => exact plain
  | PARSING_SECTION => exact plain
  | LOOKING_FOR_VALUE_START => exact plain
  | ERROR => exact plain
  | PARSING_KEY =>
    refine follows_bind (findToken_follows hP hcall hdest busy h n _ _ _) ?_
    rintro ⟨g, r⟩
    dsimp only
    split
    · refine follows_use ?_
      split
      · exact follows_pure rfl
      · split
        · refine follows_lift_bind ?_
          intro value _
          refine follows_bind (tellEvents_follows hP hcall hdest busy (g.setText n { g.text n with value := value }) _) ?_
          intro g2
          refine follows_use (follows_lift_bind ?_)
          intro key _
          exact follows_pure rfl
        · exact follows_pure rfl
    · exact follows_pure rfl
  | PARSING_VALUE =>
    refine follows_bind (findToken_follows hP hcall hdest busy h n _ _ _) ?_
    rintro ⟨g, r⟩
    dsimp only
    split
    · refine follows_use (follows_bind (tellEvents_follows hP hcall hdest busy g _) ?_)
      intro g2
      refine follows_use (follows_lift_bind ?_)
      intro key _
      refine follows_lift_bind ?_
      intro value _
      exact follows_pure rfl
    · exact follows_pure rfl

theorem processLoop_follows (busy : List Obj) (fuel : Nat) : ∀ (h : Scene) (n o : Nat),
    (processLoop P k busy fuel h n o).Follows (fun x => (x.1.w, x.2)) (processLoopN Q k' fuel h.w n o) := by
  induction fuel with
  | zero => intro h n o; rfl
  | succ fuel ih =>
    intro h n o
    unfold processLoop processLoopN
    refine follows_use ?_
    have hs : (h.text n).buffer.len = (h.w.text n).buffer.len := rfl
    rw [hs]
    split
    · refine follows_bind (processStep_follows hP hcall hdest busy h n o) ?_
      rintro ⟨g, c, s⟩
      dsimp only
      split
      · exact follows_pure rfl
      · exact ih g n c
    · exact follows_pure rfl

theorem reportParseError_follows (busy : List Obj) (h : Scene) (n : Nat) :
    (reportParseError P k busy h n).Follows (·.w) (reportParseErrorN Q k' h.w n) := by
  refine follows_lift_bind ?_
  rintro ⟨t, evs⟩ -
  exact tellEvents_follows hP hcall hdest busy (h.setText n t) evs

theorem addLoop_follows (busy : List Obj) (fuel : Nat) : ∀ (h : Scene) (n : Nat) (input : BufferManager) (i : Nat),
    (addLoop P k busy fuel h n input i).Follows (·.w) (addLoopN Q k' fuel h.w n input i) := by
  induction fuel with
  | zero => intro h n input i; rfl
  | succ fuel ih =>
    intro h n input i
    unfold addLoop addLoopN
    have hs : h.text n = h.w.text n := rfl
    rw [hs]
    split
    · split
      · exact reportParseError_follows hP hcall hdest busy h n
      · refine follows_lift_bind ?_
        rintro ⟨buffer, m⟩ -
        refine follows_bind (processLoop_follows hP hcall hdest busy _ (h.setText n { h.text n with buffer := buffer }) n 0) ?_
        rintro ⟨g, c⟩
        dsimp only
        refine follows_use (follows_lift_bind ?_)
        intro buffer _
        exact ih (g.setText n { g.text n with buffer := buffer }) n input _
    · exact follows_pure rfl

theorem addText_follows (busy : List Obj) (h : Scene) (n : Nat) (input : BufferManager) :
    (addText P k busy h n input).Follows (·.w) (addTextN Q k' h.w n input) := by
  unfold addText addTextN
  have hs : h.text n = h.w.text n := rfl
  rw [hs]
  split
  · exact reportParseError_follows hP hcall hdest busy h n
  · exact addLoop_follows hP hcall hdest busy _ h n input 0

theorem parserReset_follows (busy : List Obj) (h : Scene) (n : Nat) :
    (parserReset P k busy h n).Follows (·.w) (parserResetN Q k' h.w n) := by
  refine follows_use (follows_bind (tellConsumers_follows hP hcall hdest _ h _) ?_)
  intro g
  refine follows_use (follows_lift_bind ?_)
  intro p _
  exact follows_pure rfl

theorem parserData_follows (busy : List Obj) (h : Scene) (n : Nat) (d : Data) :
    (parserData P k busy h n d).Follows (·.w) (parserDataN Q k' h.w n d) := by
  refine follows_lift_bind ?_
  intro crc _
  refine follows_bind (addText_follows hP hcall hdest _ (h.setParser n { h.w.parsers n with
      remaining := (h.w.parsers n).remaining - d.dlc.zeroExtend 32
      crc := some ((d.bytes.take d.dlc.toNat).foldl Crc.updateCrc crc) }) n _) ?_
  intro g
  refine follows_use ?_
  split
  · refine follows_lift_bind ?_
    intro crc _
    split
    · exact tellConsumers_follows hP hcall hdest busy (g.setParser n { g.w.parsers n with state := .STREAM_DONE }) _
    · exact tellConsumers_follows hP hcall hdest busy (g.setParser n { g.w.parsers n with state := .IDLE }) _
  · exact follows_pure rfl

theorem parserAdd_follows (busy : List Obj) (h : Scene) (n : Nat) (d : Data) :
    (parserAdd P k busy h n d).Follows (·.w) (parserAddN Q k' h.w n d) := by
  refine follows_use ?_
  unfold parserAddN
  split
  · exact parserReset_follows hP hcall hdest busy h n
  · split
    · exact parserData_follows hP hcall hdest busy h n d
    · refine follows_lift_bind ?_
      rintro ⟨p, calls⟩ -
      exact tellConsumers_follows hP hcall hdest busy (h.setParser n p) calls

theorem runCall_follows (busy : List Obj) (h : Scene) (c : Call) : (runCall P k busy h c).Follows (·.w) (runCallN Q k' h.w c) := by
  cases c with
  | cfgStart n => exact follows_use (follows_pure rfl)
  | cfgAdd n d => exact parserAdd_follows hP hcall hdest busy h n d
  | cfgReset n => exact parserReset_follows hP hcall hdest busy h n
  | tx cb f =>
    unfold runCall runCallN
    dsimp only
    cases h.w.station.callbacks.tx with
    | none => rfl
    | some cb => exact follows_use (tell_follows hP hcall hdest busy h _)
  | _ => exact follows_use (tell_follows hP hcall hdest busy h _)

theorem runCalls_follows (busy : List Obj) (h : Scene) (r : Res (List Call)) :
    (runCalls P k busy h r).Follows (·.w) (runCallsN Q k' h.w r) := by
  refine follows_lift_bind ?_
  intro cs _
  have := follows_foldlM (f := Scene.w) (runCall P k busy) (runCallN Q k') id (fun b a => runCall_follows hP hcall hdest busy b a) cs h
  rwa [List.map_id] at this

theorem finish_follows (busy : List Obj) (h : Scene) : (finish P k busy h).Follows (·.w) (finishN Q k' h.w) := by
  unfold finish finishN
  cases h.w.station.callbacks.configData with
  | none => exact follows_pure rfl
  | some n => exact follows_bind (parserReset_follows hP hcall hdest busy h n) (fun g => follows_pure rfl)

theorem send8_follows (busy : List Obj) (h : Scene) (id : Identifier) (bytes : List Byte) :
    (send8 P k busy h id bytes).Follows (·.w) (World.send8 Q k' h.w id bytes) := runCalls_follows hP hcall hdest busy h _

theorem requestEngine_follows (busy : List Obj) (h : Scene) (engine : List Obj) (info : World → ShortInfo) (p : Option Nat) :
    (requestEngine P k busy h engine info p).Follows (·.w) (requestEngineN Q k' h.w info p) := by
  unfold requestEngine requestEngineN
  split
  · exact follows_pure rfl
  · split
    · exact follows_pure rfl
    · refine follows_bind (finish_follows hP hcall hdest _ h) ?_
      intro g
      refine follows_use ?_
      cases p with
      | none =>
        refine follows_lift_bind (fun _ _ => follows_bind (send8_follows hP hcall hdest _ (g.put (g.w.register none)) _ _) (fun g2 => follows_use ?_))
        refine follows_lift_bind (fun l _ => follows_lift_bind (fun _ _ => follows_bind (send8_follows hP hcall hdest _ g2 _ _) (fun g3 => follows_use ?_)))
        simp only [decide_eq_true_eq]
        exact follows_lift_bind (fun _ _ => send8_follows hP hcall hdest _ g3 _ _)
      | some n =>
        refine follows_lift_bind (fun _ _ => follows_bind (send8_follows hP hcall hdest _
          ((g.put (g.w.register (some n))).setParser n ((g.w.register (some n)).parsers n).startStream) _ _) (fun g2 => follows_use ?_))
        refine follows_lift_bind (fun l _ => follows_lift_bind (fun _ _ => follows_bind (send8_follows hP hcall hdest _ g2 _ _) (fun g3 => follows_use ?_)))
        simp only [decide_eq_true_eq]
        exact follows_lift_bind (fun _ _ => send8_follows hP hcall hdest _ g3 _ _)

theorem step_follows (busy : List Obj) (h : Scene) (op : Op) : (step P k busy h op).Follows (·.w) (stepN Q k' h.w op) := by
  have plain : (do let w ← RunD.lift (h.w.step op); pure (h.put w) : RunD Scene).Follows (·.w) (Run.lift (h.w.step op)) := by
    cases h.w.step op <;> rfl
  refine follows_use ?_
  cases op with
  | begin_ u cbs =>
    refine follows_bind (finish_follows hP hcall hdest _ h) ?_
    intro g
    generalize hr : g.w.step (.begin_ u cbs) = r
    cases r with
    | error e => rfl
    | ok w => rfl
  | requestEngineList off p =>
    refine follows_bind (finish_follows hP hcall hdest _ h) ?_
    intro g
    refine follows_lift_bind ?_
    rintro ⟨s, calls⟩ -
    exact runCalls_follows hP hcall hdest busy (g.put { g.w with station := s }) _
  | requestEngine e p => exact requestEngine_follows hP hcall hdest busy h _ _ p
  | requestShortInfo i p => exact requestEngine_follows hP hcall hdest busy h _ _ p
  | finish => exact finish_follows hP hcall hdest busy h
  | abort => exact finish_follows hP hcall hdest busy h
  | notifyReceived => exact finish_follows hP hcall hdest busy h
  | handle f => exact runCalls_follows hP hcall hdest busy h _
  | parserAdd n d => exact parserAdd_follows hP hcall hdest busy h n d
  | parserReset n => exact parserReset_follows hP hcall hdest busy h n
  | requestAllFunctions e => exact runCalls_follows hP hcall hdest busy h _
  | requestDirection e => exact runCalls_follows hP hcall hdest busy h _
  | sendDirection e d => exact runCalls_follows hP hcall hdest busy h _
  | requestVelocity e => exact runCalls_follows hP hcall hdest busy h _
  | sendVelocity e v => exact runCalls_follows hP hcall hdest busy h _
  | requestFunction e f => exact runCalls_follows hP hcall hdest busy h _
  | sendFunction e f v => exact runCalls_follows hP hcall hdest busy h _
  | sendEmergencyStop e => exact runCalls_follows hP hcall hdest busy h _
  | sendStop => exact runCalls_follows hP hcall hdest busy h _
  | sendGo => exact runCalls_follows hP hcall hdest busy h _
  | sendAccessory a p d pw => exact runCalls_follows hP hcall hdest busy h _
  | sendPacket f => exact runCalls_follows hP hcall hdest busy h _
  | _ => exact plain

end

theorem nested_destroy (P : ProgramD) (depth : Nat) (busy : List Obj) (h : Scene) (o : Obj) : nested P depth busy h (.destroy o) = h.destroy o := by
  cases depth <;> rfl

theorem nested_follows {P : ProgramD} {Q : Program} (hP : P.Calls Q) (depth : Nat) (busy : List Obj) (h : Scene) (op : Op) :
    (nested P depth busy h (.call op)).Follows (·.w) (World.nested Q depth h.w op) := by
  induction depth generalizing busy h op with
  | zero => rfl
  | succ depth ih => exact step_follows hP ih (nested_destroy P depth) busy h op

end Scene

end RR32
