import Verif.Proofs.NestedStable
import Verif.Proofs.Histories

/-!
# Invariants of nested calls that calls on consumers keep as a whole
-/

set_option autoImplicit false

namespace RR32

namespace World

/-- A property of programs that survives calls on consumers and changes of parsers. -/
structure Held (I : World → Prop) : Prop where
  consumer : ∀ w v (c : ConsumerCall), w.callConsumer c = .ok v → I w → I v
  parser : ∀ w n p, I w → I (w.setParser n p)

/-- A property of programs that survives calls on consumers, changes of parsers and of the station, log entries for the other callbacks, and
those direct changes of the application's objects that are in `A`. -/
structure Steady (A : Op → Prop) (I : World → Prop) : Prop extends Held I where
  call : ∀ w (c : Call), I w → I (w.logAll [.call c])
  station : ∀ w s, I w → I { w with station := s }
  own : ∀ w v op, op.isOwn = true → A op → w.step op = .ok v → I w → I v

section
variable {I : World → Prop} (hI : Held I)
include hI

theorem steady_setText {w : World} {n : Nat} (t : TextParser) (hw : I w) : I (w.setText n t) := hI.parser _ _ _ hw

variable {P : Program} {k : World → Op → Run World} (hR : ∀ w e, I w → (react P k w e).Keeps I)
include hR

theorem callConsumerN_steady (w : World) (c : ConsumerCall) (hw : I w) : (callConsumerN P k w c).Keeps I := by
  unfold callConsumerN
  refine sat_bind (keeps_lift (Q := I) (fun v h => hI.consumer _ _ _ h hw)) (fun v hv => ?_)
  exact sat_foldlM _ _ _ _ (fun e _ u hu => hR u e hu) hv

theorem tellEvents_steady (w : World) (evs : List ParseEvent) (hw : I w) : (tellEvents P k w evs).Keeps I :=
  sat_foldlM _ _ _ _ (fun c _ u hu => callConsumerN_steady hI hR u c hu) hw

theorem tellConsumers_steady (w : World) (cs : List ConsumerCall) (hw : I w) : (tellConsumers P k w cs).Keeps I :=
  sat_foldlM _ _ _ _ (fun c _ u hu => callConsumerN_steady hI hR u c hu) hw

variable {n : Nat}

theorem findTokenN_steady (w : World) (o : Nat) (cs : List Byte) (d : TextParser.Dest) (hw : I w) :
    (findTokenN P k w n o cs d).Keeps (fun x => I x.1) := by
  unfold findTokenN
  refine sat_bind (keeps_lift (Q := fun _ => True) (fun _ _ => trivial)) (fun x _ => ?_)
  refine sat_bind (tellEvents_steady hI hR _ _ (steady_setText hI _ hw)) (fun v hv => ?_)
  exact sat_pure hv

theorem processStepN_steady (w : World) (o : Nat) (hw : I w) : (processStepN P k w n o).Keeps (fun x => I x.1) := by
  have any : ∀ {α : Type} (r : Res α), (Run.lift r).Keeps (fun _ => True) := fun r => keeps_lift (fun _ _ => trivial)
  unfold processStepN
  split
  · refine sat_bind (any _) (fun x _ => ?_)
    exact sat_bind (tellEvents_steady hI hR _ _ (steady_setText hI _ hw)) (fun v hv => sat_pure hv)
  · refine sat_bind (any _) (fun x _ => ?_)
    exact sat_bind (tellEvents_steady hI hR _ _ (steady_setText hI _ hw)) (fun v hv => sat_pure hv)
  · refine sat_bind (any _) (fun x _ => ?_)
    exact sat_bind (tellEvents_steady hI hR _ _ (steady_setText hI _ hw)) (fun v hv => sat_pure hv)
  · refine sat_bind (any _) (fun x _ => ?_)
    exact sat_bind (tellEvents_steady hI hR _ _ (steady_setText hI _ hw)) (fun v hv => sat_pure hv)
  · refine sat_bind (findTokenN_steady hI hR w _ _ _ hw) (fun x hx => ?_)
    obtain ⟨w1, r⟩ := x
    dsimp only at hx ⊢
    split
    · split
      · exact sat_pure (steady_setText hI _ hx)
      · split
        · refine sat_bind (any _) (fun value _ => ?_)
          refine sat_bind (tellEvents_steady hI hR _ _ (steady_setText hI _ hx)) (fun v hv => ?_)
          refine sat_bind (any _) (fun key _ => ?_)
          exact sat_pure (steady_setText hI _ hv)
        · exact sat_pure hx
    · exact sat_pure hx
  · refine sat_bind (findTokenN_steady hI hR w _ _ _ hw) (fun x hx => ?_)
    obtain ⟨w1, r⟩ := x
    dsimp only at hx ⊢
    split
    · refine sat_bind (tellEvents_steady hI hR _ _ hx) (fun v hv => ?_)
      refine sat_bind (any _) (fun key _ => ?_)
      refine sat_bind (any _) (fun value _ => ?_)
      exact sat_pure (steady_setText hI _ (steady_setText hI _ hv))
    · exact sat_pure hx

theorem processLoopN_steady (fuel : Nat) (w : World) (o : Nat) (hw : I w) : (processLoopN P k fuel w n o).Keeps (fun x => I x.1) := by
  induction fuel generalizing w o with
  | zero => exact trivial
  | succ fuel ih =>
    rw [processLoopN]
    split
    · refine sat_bind (processStepN_steady hI hR w o hw) (fun x hx => ?_)
      obtain ⟨w1, j, stop⟩ := x
      dsimp only at hx ⊢
      split
      · exact sat_pure hx
      · exact ih w1 _ hx
    · exact sat_pure hw

theorem reportParseErrorN_steady (w : World) (hw : I w) : (reportParseErrorN P k w n).Keeps I := by
  unfold reportParseErrorN
  refine sat_bind (keeps_lift (Q := fun _ => True) (fun _ _ => trivial)) (fun x _ => ?_)
  exact tellEvents_steady hI hR _ _ (steady_setText hI _ hw)

theorem addLoopN_steady (fuel : Nat) (w : World) (input : BufferManager) (o : Nat) (hw : I w) : (addLoopN P k fuel w n input o).Keeps I := by
  induction fuel generalizing w o with
  | zero => exact trivial
  | succ fuel ih =>
    rw [addLoopN]
    split
    · split
      · exact reportParseErrorN_steady hI hR w hw
      · refine sat_bind (keeps_lift (Q := fun _ => True) (fun _ _ => trivial)) (fun x _ => ?_)
        refine sat_bind (processLoopN_steady hI hR _ _ _ (steady_setText hI _ hw)) (fun y hy => ?_)
        refine sat_bind (keeps_lift (Q := fun _ => True) (fun _ _ => trivial)) (fun b _ => ?_)
        exact ih _ _ (steady_setText hI _ hy)
    · exact sat_pure hw

theorem addTextN_steady (w : World) (input : BufferManager) (hw : I w) : (addTextN P k w n input).Keeps I := by
  unfold addTextN
  split
  · exact reportParseErrorN_steady hI hR w hw
  · exact addLoopN_steady hI hR _ _ _ _ hw

theorem parserResetN_steady (w : World) (hw : I w) : (parserResetN P k w n).Keeps I := by
  unfold parserResetN
  refine sat_bind (tellConsumers_steady hI hR _ _ hw) (fun v hv => ?_)
  refine sat_bind (keeps_lift (Q := fun _ => True) (fun _ _ => trivial)) (fun b _ => ?_)
  exact sat_pure (hI.parser _ _ _ hv)

theorem parserAddN_steady (w : World) (d : Data) (hw : I w) : (parserAddN P k w n d).Keeps I := by
  unfold parserAddN
  split
  · exact parserResetN_steady hI hR w hw
  · split
    · unfold parserDataN
      refine sat_bind (keeps_lift (Q := fun _ => True) (fun _ _ => trivial)) (fun b _ => ?_)
      refine sat_bind (addTextN_steady hI hR _ _ (hI.parser _ _ _ hw)) (fun v hv => ?_)
      split
      · refine sat_bind (keeps_lift (Q := fun _ => True) (fun _ _ => trivial)) (fun b _ => ?_)
        split
        · exact tellConsumers_steady hI hR _ _ (hI.parser _ _ _ hv)
        · exact tellConsumers_steady hI hR _ _ (hI.parser _ _ _ hv)
      · exact sat_pure hv
    · refine sat_bind (keeps_lift (Q := fun _ => True) (fun _ _ => trivial)) (fun b _ => ?_)
      exact tellConsumers_steady hI hR _ _ (hI.parser _ _ _ hw)

end

section
variable {A : Op → Prop} {I : World → Prop} (hI : Steady A I)
include hI

variable {P : Program} {k : World → Op → Run World} (hR : ∀ w e, I w → (react P k w e).Keeps I)
include hR

variable {n : Nat}

theorem tell_steady (w : World) (c : Call) (hw : I w) : (tell P k w (.call c)).Keeps I := hR _ _ (hI.call _ _ hw)

theorem runCallN_steady (w : World) (c : Call) (hw : I w) : (runCallN P k w c).Keeps I := by
  unfold runCallN
  split
  · exact sat_pure (hI.parser _ _ _ hw)
  · exact parserAddN_steady hI.toHeld hR w _ hw
  · exact parserResetN_steady hI.toHeld hR w hw
  · split
    · exact trivial
    · exact tell_steady hI hR _ _ hw
  · exact tell_steady hI hR _ _ hw

theorem runCallsN_steady (w : World) (r : Res (List Call)) (hw : I w) : (runCallsN P k w r).Keeps I := by
  unfold runCallsN
  refine sat_bind (keeps_lift (Q := fun cs => r = .ok cs) (fun _ h => h)) (fun cs hcs => ?_)
  exact sat_foldlM _ _ _ _ (fun c hc u hu => runCallN_steady hI hR u c hu) hw

theorem finishN_ends (w : World) (hw : I w) : (finishN P k w).Keeps (fun v => I v ∧ v.station.callbacks.configData = none) := by
  unfold finishN
  split
  · next h => exact sat_pure ⟨hw, h⟩
  · exact sat_bind (parserResetN_steady hI.toHeld hR w hw) (fun v hv => sat_pure ⟨hI.station _ _ hv, rfl⟩)

theorem finishN_steady (w : World) (hw : I w) : (finishN P k w).Keeps I := sat_mono (finishN_ends hI hR w hw) (fun _ h => h.1)

theorem send8_steady (w : World) (id : Identifier) (bytes : List Byte) (hw : I w) : (send8 P k w id bytes).Keeps I :=
  runCallsN_steady hI hR w _ hw

theorem requestEngineN_steady (w : World) (info : World → ShortInfo) (p : Option Nat) (hw : I w) : (requestEngineN P k w info p).Keeps I := by
  have any : ∀ {α : Type} (r : Res α), (Run.lift r).Keeps (fun _ => True) := fun r => keeps_lift (fun _ _ => trivial)
  unfold requestEngineN
  split
  · exact sat_pure hw
  · split
    · exact sat_pure hw
    · refine sat_bind (finishN_steady hI hR w hw) (fun v hv => ?_)
      have h1 : I (v.register p) := hI.station _ _ hv
      cases p with
      | none =>
        refine sat_bind (any _) (fun _ _ => ?_)
        refine sat_bind (send8_steady hI hR _ _ _ h1) (fun v hv => ?_)
        refine sat_bind (any _) (fun _ _ => ?_)
        refine sat_bind (any _) (fun _ _ => ?_)
        refine sat_bind (send8_steady hI hR _ _ _ hv) (fun v hv => ?_)
        refine sat_bind (any _) (fun _ _ => ?_)
        exact send8_steady hI hR _ _ _ hv
      | some n =>
        refine sat_bind (any _) (fun _ _ => ?_)
        refine sat_bind (send8_steady hI hR _ _ _ (hI.parser _ n _ h1)) (fun v hv => ?_)
        refine sat_bind (any _) (fun _ _ => ?_)
        refine sat_bind (any _) (fun _ _ => ?_)
        refine sat_bind (send8_steady hI hR _ _ _ hv) (fun v hv => ?_)
        refine sat_bind (any _) (fun _ _ => ?_)
        exact send8_steady hI hR _ _ _ hv

/-- A call keeps the property if the callbacks do. -/
theorem stepN_steady (w : World) (op : Op) (hop : A op) (hw : I w) : (stepN P k w op).Keeps I := by
  have quiet : ∀ (r : Res (List Call)), (runCallsN P k w r).Keeps I := fun r => runCallsN_steady hI hR w r hw
  have own : op.isOwn = true → (Run.lift (w.step op)).Keeps I := fun h => keeps_lift (fun v hv => hI.own w v op h hop hv hw)
  cases op with
  | begin_ uuid cbs =>
    refine sat_bind (finishN_ends hI hR w hw) ?_
    rintro v ⟨hv, hc⟩
    have : v.step (.begin_ uuid cbs) = .ok { v with station := { callbacks := cbs, senderHash := computeSenderHash (uuid.zeroExtend 32) } } := by
      simp only [step, stationUpdate, Station.begin_, Station.AbortCurrentConfigRequest, Station.FinishCurrentConfigRequest, hc, bind, Except.bind]
      rfl
    rw [this]
    exact hI.station _ _ hv
  | requestEngineList off p =>
    refine sat_bind (finishN_steady hI hR w hw) (fun v hv => ?_)
    refine sat_bind (keeps_lift (Q := fun _ => True) (fun _ _ => trivial)) (fun x _ => ?_)
    obtain ⟨s, cs⟩ := x
    exact runCallsN_steady hI hR _ _ (hI.station _ _ hv)
  | requestEngine e p => exact requestEngineN_steady hI hR w (fun w => (w.engines e).info) p hw
  | requestShortInfo i p => exact requestEngineN_steady hI hR w (fun _ => i) p hw
  | finish => exact finishN_steady hI hR w hw
  | abort => exact finishN_steady hI hR w hw
  | notifyReceived => exact finishN_steady hI hR w hw
  | handle f => exact quiet _
  | parserAdd n d => exact parserAddN_steady hI.toHeld hR w d hw
  | parserReset n => exact parserResetN_steady hI.toHeld hR w hw
  | requestDirection e => exact quiet _
  | sendDirection e d => exact quiet _
  | requestVelocity e => exact quiet _
  | sendVelocity e d => exact quiet _
  | requestFunction e d => exact quiet _
  | requestAllFunctions e => exact quiet _
  | sendFunction e d v => exact quiet _
  | sendEmergencyStop e => exact quiet _
  | sendStop => exact quiet _
  | sendGo => exact quiet _
  | sendAccessory a p d pw => exact quiet _
  | sendPacket f => exact quiet _
  | parserStart n c => exact hI.parser _ _ _ hw
  | parserStartStream n => exact hI.parser _ _ _ hw
  | setEngine c e => exact own rfl
  | setEndCallback c e => exact own rfl
  | setStreamOffset c e => exact own rfl
  | clearTable c => exact own rfl
  | resetList c => exact own rfl
  | setName e nm => exact own rfl
  | assignEngine e v => exact own rfl

end

/-- Callbacks whose calls are in `A` keep the property, however deep they nest. -/
theorem react_steady {A : Op → Prop} {I : World → Prop} (hI : Steady A I) {P : Program} (hP : ∀ w e, ∀ op ∈ P w e, A op) (depth : Nat) (u : World)
    (e : LogEntry) (hu : I u) : (react P (nested P depth) u e).Keeps I := by
  induction depth generalizing u e with
  | zero => exact sat_foldlM _ _ _ _ (fun op _ x _ => trivial) hu
  | succ depth ih =>
    exact sat_foldlM _ _ _ _ (fun op hop x hx => stepN_steady hI (fun w e hw => ih w e hw) x op (hP u e op hop) hx) hu

/-- What all calls have in common, callbacks have in common that change the application's objects only so. -/
theorem Frame.steady {R : World → World → Prop} (F : Frame R) {A : Op → Prop} (own : ∀ w v op, Op.isOwn op = true → A op → w.step op = .ok v → R w v)
    (w : World) : Steady A (R w) where
  consumer _ _ _ h hw := F.trans hw (F.consumer h)
  call _ _ hw := F.trans hw (F.call _ _)
  parser _ _ _ hw := F.trans hw (F.parser _ _ _)
  station _ _ hw := F.trans hw (F.station _ _)
  own u v op h1 h2 h3 hw := F.trans hw (own u v op h1 h2 h3)

/-- A whole history with callbacks that call back. -/
theorem Frame.runN {R : World → World → Prop} (F : Frame R) {A : Op → Prop} (own : ∀ w v op, Op.isOwn op = true → A op → w.step op = .ok v → R w v)
    {P : Program} (hP : ∀ w e, ∀ op ∈ P w e, A op) {depth : Nat} {w w' : World} {ops : List Op} (hops : ∀ op ∈ ops, A op)
    (h : (runN P depth w ops).Returns w') : R w w' :=
  keeps_returns (sat_foldlM _ _ _ _ (fun op hop _ hx => stepN_steady (F.steady own w) (react_steady (F.steady own w) hP depth) _ op (hops op hop) hx)
    (F.refl w)) h

end World

end RR32
