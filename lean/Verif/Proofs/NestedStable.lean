import Verif.Proofs.NestedGood
import Verif.Props.Abort

/-!
# Invariants of nested calls that are closed under single changes
-/

set_option autoImplicit false

namespace RR32

open Spec

/-- The run, if it returns, returns something with the property. -/
abbrev Run.Keeps {α : Type} (x : Run α) (Q : α → Prop) : Prop := x.Sat True (fun _ => True) Q

theorem keeps_lift {α : Type} {r : Res α} {Q : α → Prop} (h : ∀ a, r = .ok a → Q a) : (Run.lift r).Keeps Q :=
  sat_lift (fun _ _ => trivial) h

theorem keeps_returns {α : Type} {x : Run α} {Q : α → Prop} (h : x.Keeps Q) {a : α} (ha : x.Returns a) : Q a := by
  unfold Run.Keeps Run.Sat at h
  unfold Run.Returns at ha
  rw [ha] at h
  exact h

theorem allFunctionsLoop_tx (s : Station) (n : Nat) (f : CanFrame) (i : Byte) (cs : List Call) (h : s.allFunctionsLoop f n i = .ok cs) :
    ∀ c ∈ cs, ∃ cb g, c = .tx cb g := by
  induction n generalizing f i cs with
  | zero => cases h; intro c hc; cases hc
  | succ n ih =>
    obtain ⟨t, h1, h⟩ := bind_ok h
    obtain ⟨ts, h2, h⟩ := bind_ok h
    cases h
    intro c hm
    rcases List.mem_append.mp hm with hm | hm
    · unfold Station.txSend at h1
      split at h1
      · cases h1
      · cases h1; rw [List.mem_singleton] at hm; exact ⟨_, _, hm⟩
    · exact ih _ _ ts h2 c hm

/-- Only stream frames reach the parser. -/
theorem HandlePacket_spares (s : Station) (b : Bool) (f : CanFrame) (hf : commandOf f ≠ 0x21) (cs : List Call) (h : s.HandlePacket b f = .ok cs) :
    ∀ c ∈ cs, ∀ n, c ≠ .cfgStart n ∧ c ≠ .cfgReset n ∧ ∀ d, c ≠ .cfgAdd n d := by
  rw [HandlePacket_eq] at h
  split at h
  · cases h
  split at h
  · cases h
  injection h with h
  subst h
  unfold reaction
  intro c hc n
  simp only at hc
  have key : ∀ (o : Option Nat) (g : Nat → Call), (∀ m, (∀ n, g m ≠ .cfgStart n ∧ g m ≠ .cfgReset n ∧ ∀ d, g m ≠ .cfgAdd n d)) →
      c ∈ toward o g → c ≠ .cfgStart n ∧ c ≠ .cfgReset n ∧ ∀ d, c ≠ .cfgAdd n d := by
    intro o g hg hc
    cases o with
    | none => cases hc
    | some m => rw [List.mem_singleton.mp hc]; exact hg m n
  split at hc
  all_goals try split at hc
  all_goals try split at hc
  all_goals first
    | exact absurd ‹commandOf f = 0x21› hf
    | exact key _ _ (by intros; simp) hc
    | cases hc

/-- A stored setting leaves the names of engines alone. -/
theorem consumeConfigData_name {pf : Platform} {c : LocoConsumer} {es es' : Engines} {s k v : BufferManager}
    (h : c.consumeConfigData pf es s k v = .ok es') (m : Nat) : (es' m).info.name = (es m).info.name := by
  unfold LocoConsumer.consumeConfigData at h
  obtain ⟨o, -, h⟩ := bind_ok h
  cases o with
  | none => cases h; rfl
  | some n =>
    obtain ⟨e, h1, h⟩ := bind_ok h
    cases h
    unfold Engines.set
    split
    · next hm => rw [consumeOn_info h1, hm]
    · rfl

theorem setStreamComplete_name {c : LocoConsumer} {es : Engines} {x : Engines × List (EndCall Locomotive)}
    (h : c.setStreamComplete es = .ok x) (m : Nat) : (x.1 m).info.name = (es m).info.name := by
  unfold LocoConsumer.setStreamComplete at h
  obtain ⟨o, -, h⟩ := bind_ok h
  cases o with
  | none => cases h; rfl
  | some n =>
    obtain ⟨_, -, h⟩ := bind_ok h
    obtain ⟨_, -, h⟩ := bind_ok h
    cases h
    dsimp only
    unfold Engines.set
    split
    · next hm => rw [hm]; rfl
    · rfl

theorem set_name {N : Nat → Prop} (es : Engines) (e : Nat) (l : Locomotive) (he : N e) (m : Nat) : (es.set e l m).info.name = (es m).info.name ∨ N m := by
  unfold Engines.set
  split
  · next hm => exact Or.inr (hm ▸ he)
  · exact Or.inl rfl

namespace World

/-- A property of programs that survives every single change that calls make: appending to the log, changes of the parsers in `T`, of
engines if only those in `N` get another name, of the library's consumers and, if `T` is all parsers, of the station. -/
structure Stable (T N : Nat → Prop) (I : World → Prop) : Prop where
  log : ∀ w l, I w → I (w.logAll l)
  parser : ∀ w n p, T n → I w → I (w.setParser n p)
  engines : ∀ w (e : Engines), (∀ m, (e m).info.name = (w.engines m).info.name ∨ N m) → I w → I { w with engines := e }
  consumer : ∀ w c x, w.consumers c ≠ .app → x ≠ Consumer.app → I w → I (w.setConsumer c x)
  station : (∀ n, T n) → ∀ w s, I w → I { w with station := s }

/-- A call that changes no parsers but those in `T`. -/
def Sparing (T : Nat → Prop) : Op → Prop
  | .begin_ .. | .finish | .abort | .notifyReceived | .requestEngine .. | .requestShortInfo .. | .requestEngineList .. => ∀ n, T n
  | .handle f => commandOf f = 0x21 → ∀ n, T n
  | .parserStart n _ | .parserStartStream n | .parserAdd n _ | .parserReset n => T n
  | _ => True

/-- A call that changes the name of no engine but those in `N`. -/
def Naming (N : Nat → Prop) : Op → Prop
  | .setName e _ | .assignEngine e _ => N e
  | _ => True

theorem naming_all (op : Op) : Naming (fun _ => True) op := by
  cases op <;> simp [Naming]

section
variable {T N : Nat → Prop} {I : World → Prop} (hI : Stable T N I)
include hI

theorem callConsumer_stable {w v : World} {c : ConsumerCall} (hw : I w) (h : w.callConsumer c = .ok v) : I v := by
  unfold callConsumer at h
  have h0 := hI.log w [.consumer c] hw
  have hcons : (w.logAll [.consumer c]).consumers = w.consumers := rfl
  dsimp only at h
  split at h
  · obtain ⟨_, h1, h⟩ := bind_ok h; cases h; exact hI.engines _ _ (fun m => Or.inl (consumeConfigData_name h1 m)) h0
  · obtain ⟨_, h1, h⟩ := bind_ok h; cases h; exact hI.log _ _ (hI.engines _ _ (fun m => Or.inl (setStreamComplete_name h1 m)) h0)
  · obtain ⟨_, -, h⟩ := bind_ok h; cases h; exact hI.log _ _ h0
  · next hk _ => obtain ⟨_, -, h⟩ := bind_ok h; cases h; exact hI.consumer _ _ _ (by rw [hk]; simp) (by simp) h0
  · next hk _ => obtain ⟨_, -, h⟩ := bind_ok h; cases h; exact hI.log _ _ (hI.consumer _ _ _ (by rw [hk]; simp) (by simp) h0)
  · next hk _ => obtain ⟨_, -, h⟩ := bind_ok h; cases h; exact hI.log _ _ (hI.consumer _ _ _ (by rw [hk]; simp) (by simp) h0)
  · cases h; exact h0

theorem stable_setText {w : World} {n : Nat} (t : TextParser) (hn : T n) (hw : I w) : I (w.setText n t) := hI.parser _ _ _ hn hw

variable {P : Program} {k : World → Op → Run World} (hR : ∀ w e, I w → (react P k w e).Keeps I)
include hR

theorem callConsumerN_stable (w : World) (c : ConsumerCall) (hw : I w) : (callConsumerN P k w c).Keeps I := by
  unfold callConsumerN
  refine sat_bind (keeps_lift (Q := I) (fun v h => callConsumer_stable hI hw h)) (fun v hv => ?_)
  exact sat_foldlM _ _ _ _ (fun e _ u hu => hR u e hu) hv

theorem tellEvents_stable (w : World) (evs : List ParseEvent) (hw : I w) : (tellEvents P k w evs).Keeps I :=
  sat_foldlM _ _ _ _ (fun c _ u hu => callConsumerN_stable hI hR u c hu) hw

theorem tellConsumers_stable (w : World) (cs : List ConsumerCall) (hw : I w) : (tellConsumers P k w cs).Keeps I :=
  sat_foldlM _ _ _ _ (fun c _ u hu => callConsumerN_stable hI hR u c hu) hw

section
variable {n : Nat} (hn : T n)
include hn

theorem findTokenN_stable (w : World) (o : Nat) (cs : List Byte) (d : TextParser.Dest) (hw : I w) :
    (findTokenN P k w n o cs d).Keeps (fun x => I x.1) := by
  unfold findTokenN
  refine sat_bind (keeps_lift (Q := fun _ => True) (fun _ _ => trivial)) (fun x _ => ?_)
  refine sat_bind (tellEvents_stable hI hR _ _ (stable_setText hI _ hn hw)) (fun v hv => ?_)
  exact sat_pure hv

theorem processStepN_stable (w : World) (o : Nat) (hw : I w) : (processStepN P k w n o).Keeps (fun x => I x.1) := by
  have any : ∀ {α : Type} (r : Res α), (Run.lift r).Keeps (fun _ => True) := fun r => keeps_lift (fun _ _ => trivial)
  unfold processStepN
  split
  · refine sat_bind (any _) (fun x _ => ?_)
    exact sat_bind (tellEvents_stable hI hR _ _ (stable_setText hI _ hn hw)) (fun v hv => sat_pure hv)
  · refine sat_bind (any _) (fun x _ => ?_)
    exact sat_bind (tellEvents_stable hI hR _ _ (stable_setText hI _ hn hw)) (fun v hv => sat_pure hv)
  · refine sat_bind (any _) (fun x _ => ?_)
    exact sat_bind (tellEvents_stable hI hR _ _ (stable_setText hI _ hn hw)) (fun v hv => sat_pure hv)
  · refine sat_bind (any _) (fun x _ => ?_)
    exact sat_bind (tellEvents_stable hI hR _ _ (stable_setText hI _ hn hw)) (fun v hv => sat_pure hv)
  · refine sat_bind (findTokenN_stable hI hR hn w _ _ _ hw) (fun x hx => ?_)
    obtain ⟨w1, r⟩ := x
    dsimp only at hx ⊢
    split
    · split
      · exact sat_pure (stable_setText hI _ hn hx)
      · split
        · refine sat_bind (any _) (fun value _ => ?_)
          refine sat_bind (tellEvents_stable hI hR _ _ (stable_setText hI _ hn hx)) (fun v hv => ?_)
          refine sat_bind (any _) (fun key _ => ?_)
          exact sat_pure (stable_setText hI _ hn hv)
        · exact sat_pure hx
    · exact sat_pure hx
  · refine sat_bind (findTokenN_stable hI hR hn w _ _ _ hw) (fun x hx => ?_)
    obtain ⟨w1, r⟩ := x
    dsimp only at hx ⊢
    split
    · refine sat_bind (tellEvents_stable hI hR _ _ hx) (fun v hv => ?_)
      refine sat_bind (any _) (fun key _ => ?_)
      refine sat_bind (any _) (fun value _ => ?_)
      exact sat_pure (stable_setText hI _ hn (stable_setText hI _ hn hv))
    · exact sat_pure hx

theorem processLoopN_stable (fuel : Nat) (w : World) (o : Nat) (hw : I w) : (processLoopN P k fuel w n o).Keeps (fun x => I x.1) := by
  induction fuel generalizing w o with
  | zero => exact trivial
  | succ fuel ih =>
    rw [processLoopN]
    split
    · refine sat_bind (processStepN_stable hI hR hn w o hw) (fun x hx => ?_)
      obtain ⟨w1, j, stop⟩ := x
      dsimp only at hx ⊢
      split
      · exact sat_pure hx
      · exact ih w1 _ hx
    · exact sat_pure hw

theorem reportParseErrorN_stable (w : World) (hw : I w) : (reportParseErrorN P k w n).Keeps I := by
  unfold reportParseErrorN
  refine sat_bind (keeps_lift (Q := fun _ => True) (fun _ _ => trivial)) (fun x _ => ?_)
  exact tellEvents_stable hI hR _ _ (stable_setText hI _ hn hw)

theorem addLoopN_stable (fuel : Nat) (w : World) (input : BufferManager) (o : Nat) (hw : I w) : (addLoopN P k fuel w n input o).Keeps I := by
  induction fuel generalizing w o with
  | zero => exact trivial
  | succ fuel ih =>
    rw [addLoopN]
    split
    · split
      · exact reportParseErrorN_stable hI hR hn w hw
      · refine sat_bind (keeps_lift (Q := fun _ => True) (fun _ _ => trivial)) (fun x _ => ?_)
        refine sat_bind (processLoopN_stable hI hR hn _ _ _ (stable_setText hI _ hn hw)) (fun y hy => ?_)
        refine sat_bind (keeps_lift (Q := fun _ => True) (fun _ _ => trivial)) (fun b _ => ?_)
        exact ih _ _ (stable_setText hI _ hn hy)
    · exact sat_pure hw

theorem addTextN_stable (w : World) (input : BufferManager) (hw : I w) : (addTextN P k w n input).Keeps I := by
  unfold addTextN
  split
  · exact reportParseErrorN_stable hI hR hn w hw
  · exact addLoopN_stable hI hR hn _ _ _ _ hw

theorem parserResetN_stable (w : World) (hw : I w) : (parserResetN P k w n).Keeps I := by
  unfold parserResetN
  refine sat_bind (tellConsumers_stable hI hR _ _ hw) (fun v hv => ?_)
  refine sat_bind (keeps_lift (Q := fun _ => True) (fun _ _ => trivial)) (fun b _ => ?_)
  exact sat_pure (hI.parser _ _ _ hn hv)

theorem parserAddN_stable (w : World) (d : Data) (hw : I w) : (parserAddN P k w n d).Keeps I := by
  unfold parserAddN
  split
  · exact parserResetN_stable hI hR hn w hw
  · split
    · unfold parserDataN
      refine sat_bind (keeps_lift (Q := fun _ => True) (fun _ _ => trivial)) (fun b _ => ?_)
      refine sat_bind (addTextN_stable hI hR hn _ _ (hI.parser _ _ _ hn hw)) (fun v hv => ?_)
      split
      · refine sat_bind (keeps_lift (Q := fun _ => True) (fun _ _ => trivial)) (fun b _ => ?_)
        split
        · exact tellConsumers_stable hI hR _ _ (hI.parser _ _ _ hn hv)
        · exact tellConsumers_stable hI hR _ _ (hI.parser _ _ _ hn hv)
      · exact sat_pure hv
    · refine sat_bind (keeps_lift (Q := fun _ => True) (fun _ _ => trivial)) (fun b _ => ?_)
      exact tellConsumers_stable hI hR _ _ (hI.parser _ _ _ hn hw)

end

theorem tell_stable (w : World) (e : LogEntry) (hw : I w) : (tell P k w e).Keeps I := hR _ _ (hI.log _ _ hw)

theorem runCallN_stable (w : World) (c : Call) (hc : (∃ cb f, c = .tx cb f) ∨ (∀ n, T n) ∨ (∀ n, c ≠ .cfgStart n ∧ c ≠ .cfgReset n ∧ ∀ d, c ≠ .cfgAdd n d))
    (hw : I w) : (runCallN P k w c).Keeps I := by
  have bad : ∀ n, c = .cfgStart n ∨ c = .cfgReset n ∨ (∃ d, c = .cfgAdd n d) → T n := by
    intro n h
    rcases hc with ⟨cb, f, rfl⟩ | hc | hc
    · rcases h with h | h | ⟨d, h⟩ <;> cases h
    · exact hc n
    · rcases h with h | h | ⟨d, h⟩
      · exact absurd h (hc n).1
      · exact absurd h (hc n).2.1
      · exact absurd h ((hc n).2.2 d)
  unfold runCallN
  split
  · exact sat_pure (hI.parser _ _ _ (bad _ (Or.inl rfl)) hw)
  · exact parserAddN_stable hI hR (bad _ (Or.inr (Or.inr ⟨_, rfl⟩))) w _ hw
  · exact parserResetN_stable hI hR (bad _ (Or.inr (Or.inl rfl))) w hw
  · split
    · exact trivial
    · exact tell_stable hI hR _ _ hw
  · exact tell_stable hI hR _ _ hw

theorem runCallsN_stable (w : World) (r : Res (List Call)) (hr : ∀ cs, r = .ok cs → ∀ c ∈ cs,
    (∃ cb f, c = .tx cb f) ∨ (∀ n, T n) ∨ (∀ n, c ≠ .cfgStart n ∧ c ≠ .cfgReset n ∧ ∀ d, c ≠ .cfgAdd n d)) (hw : I w) : (runCallsN P k w r).Keeps I := by
  unfold runCallsN
  refine sat_bind (keeps_lift (Q := fun cs => r = .ok cs) (fun _ h => h)) (fun cs hcs => ?_)
  exact sat_foldlM _ _ _ _ (fun c hc u hu => runCallN_stable hI hR u c (hr cs hcs c hc) hu) hw

theorem finishN_free (hT : ∀ n, T n) (w : World) (hw : I w) : (finishN P k w).Keeps (fun v => I v ∧ v.station.callbacks.configData = none) := by
  unfold finishN
  split
  · next h => exact sat_pure ⟨hw, h⟩
  · exact sat_bind (parserResetN_stable hI hR (hT _) w hw) (fun v hv => sat_pure ⟨hI.station hT _ _ hv, rfl⟩)

theorem finishN_stable (hT : ∀ n, T n) (w : World) (hw : I w) : (finishN P k w).Keeps I := sat_mono (finishN_free hI hR hT w hw) (fun _ h => h.1)

theorem send8_stable (w : World) (id : Identifier) (bytes : List Byte) (hw : I w) : (send8 P k w id bytes).Keeps I :=
  runCallsN_stable hI hR w _ (fun cs h c hc => Or.inl (by
    have h' := h
    unfold Station.txSend at h'
    split at h'
    · cases h'
    · cases h'; rw [List.mem_singleton] at hc; exact ⟨_, _, hc⟩)) hw

theorem requestEngineN_stable (hT : ∀ n, T n) (w : World) (info : World → ShortInfo) (p : Option Nat) (hw : I w) : (requestEngineN P k w info p).Keeps I := by
  have any : ∀ {α : Type} (r : Res α), (Run.lift r).Keeps (fun _ => True) := fun r => keeps_lift (fun _ _ => trivial)
  unfold requestEngineN
  split
  · exact sat_pure hw
  · split
    · exact sat_pure hw
    · refine sat_bind (finishN_stable hI hR hT w hw) (fun v hv => ?_)
      have h1 : I (v.register p) := hI.station hT _ _ hv
      cases p with
      | none =>
        refine sat_bind (any _) (fun _ _ => ?_)
        refine sat_bind (send8_stable hI hR _ _ _ h1) (fun v hv => ?_)
        refine sat_bind (any _) (fun _ _ => ?_)
        refine sat_bind (any _) (fun _ _ => ?_)
        refine sat_bind (send8_stable hI hR _ _ _ hv) (fun v hv => ?_)
        refine sat_bind (any _) (fun _ _ => ?_)
        exact send8_stable hI hR _ _ _ hv
      | some n =>
        refine sat_bind (any _) (fun _ _ => ?_)
        refine sat_bind (send8_stable hI hR _ _ _ (hI.parser _ n _ (hT n) h1)) (fun v hv => ?_)
        refine sat_bind (any _) (fun _ _ => ?_)
        refine sat_bind (any _) (fun _ _ => ?_)
        refine sat_bind (send8_stable hI hR _ _ _ hv) (fun v hv => ?_)
        refine sat_bind (any _) (fun _ _ => ?_)
        exact send8_stable hI hR _ _ _ hv

/-- A call of `Sparing` kind keeps the property if the callbacks do. -/
theorem stepN_stable (w : World) (op : Op) (hop : Sparing T op) (hnm : Naming N op) (hw : I w) : (stepN P k w op).Keeps I := by
  have quiet : ∀ (r : Res (List Call)), (∀ cs, r = .ok cs → ∀ c ∈ cs, ∃ cb f, c = .tx cb f) → (runCallsN P k w r).Keeps I :=
    fun r h => runCallsN_stable hI hR w r (fun cs hcs c hc => Or.inl (h cs hcs c hc)) hw
  have one : ∀ (s : Station) (f : CanFrame) cs, s.txSend f = .ok cs → ∀ c ∈ cs, ∃ cb g, c = .tx cb g := by
    intro s f cs h c hc
    unfold Station.txSend at h
    split at h
    · cases h
    · cases h; rw [List.mem_singleton] at hc; exact ⟨_, _, hc⟩
  cases op with
  | begin_ uuid cbs =>
    refine sat_bind (finishN_free hI hR hop w hw) ?_
    rintro v ⟨hv, hc⟩
    have : v.step (.begin_ uuid cbs) = .ok { v with station := { callbacks := cbs, senderHash := computeSenderHash (uuid.zeroExtend 32) } } := by
      simp only [step, stationUpdate, Station.begin_, Station.AbortCurrentConfigRequest, Station.FinishCurrentConfigRequest, hc, bind, Except.bind]
      rfl
    rw [this]
    exact hI.station hop _ _ hv
  | requestEngineList off p =>
    refine sat_bind (finishN_stable hI hR hop w hw) (fun v hv => ?_)
    refine sat_bind (keeps_lift (Q := fun _ => True) (fun _ _ => trivial)) (fun x _ => ?_)
    obtain ⟨s, cs⟩ := x
    exact runCallsN_stable hI hR _ _ (fun cs _ c _ => Or.inr (Or.inl hop)) (hI.station hop _ _ hv)
  | requestEngine e p => exact requestEngineN_stable hI hR hop w (fun w => (w.engines e).info) p hw
  | requestShortInfo i p => exact requestEngineN_stable hI hR hop w (fun _ => i) p hw
  | finish => exact finishN_stable hI hR hop w hw
  | abort => exact finishN_stable hI hR hop w hw
  | notifyReceived => exact finishN_stable hI hR hop w hw
  | handle f =>
    refine runCallsN_stable hI hR w _ (fun cs h c hc => ?_) hw
    by_cases hf : commandOf f = 0x21
    · exact Or.inr (Or.inl (hop hf))
    · exact Or.inr (Or.inr (HandlePacket_spares _ _ f hf cs h c hc))
  | parserAdd n d => exact parserAddN_stable hI hR hop w d hw
  | parserReset n => exact parserResetN_stable hI hR hop w hw
  | requestDirection e => exact quiet _ (one _ _)
  | sendDirection e d =>
    refine quiet _ (fun cs h => ?_)
    unfold Station.SendEngineDirection at h
    split at h
    · exact one _ _ _ h
    · cases h; intro c hc; cases hc
  | requestVelocity e => exact quiet _ (one _ _)
  | sendVelocity e d => exact quiet _ (one _ _)
  | requestFunction e d => exact quiet _ (one _ _)
  | requestAllFunctions e => exact quiet _ (fun cs h => allFunctionsLoop_tx _ _ _ _ cs h)
  | sendFunction e d v => exact quiet _ (one _ _)
  | sendEmergencyStop e => exact quiet _ (one _ _)
  | sendStop => exact quiet _ (one _ _)
  | sendGo => exact quiet _ (one _ _)
  | sendAccessory a p d pw => exact quiet _ (one _ _)
  | sendPacket f => exact quiet _ (one _ _)
  | parserStart n c => exact hI.parser _ _ _ hop hw
  | parserStartStream n => exact hI.parser _ _ _ hop hw
  | setEngine c e =>
    refine keeps_lift (fun v h => ?_)
    simp only [step] at h
    split at h
    · next hk => cases h; exact hI.consumer _ _ _ (by rw [hk]; simp) (by simp) hw
    · cases h; exact hw
  | setEndCallback c e =>
    refine keeps_lift (fun v h => ?_)
    simp only [step] at h
    split at h
    · next hk => cases h; exact hI.consumer _ _ _ (by rw [hk]; simp) (by simp) hw
    · next hk => cases h; exact hI.consumer _ _ _ (by rw [hk]; simp) (by simp) hw
    · cases h; exact hw
  | setStreamOffset c e =>
    refine keeps_lift (fun v h => ?_)
    simp only [step] at h
    split at h
    · next hk => cases h; exact hI.consumer _ _ _ (by rw [hk]; simp) (by simp) hw
    · cases h; exact hw
  | clearTable c =>
    refine keeps_lift (fun v h => ?_)
    simp only [step] at h
    split at h
    · next hk => cases h; exact hI.consumer _ _ _ (by rw [hk]; simp) (by simp) hw
    · cases h; exact hw
  | resetList c =>
    refine keeps_lift (fun v h => ?_)
    simp only [step] at h
    split at h
    · next hk => cases h; exact hI.consumer _ _ _ (by rw [hk]; simp) (by simp) hw
    · cases h; exact hw
  | setName e nm =>
    refine keeps_lift (fun v h => ?_)
    obtain ⟨l, -, h⟩ := bind_ok h
    cases h
    exact hI.engines _ _ (set_name _ _ _ hnm) hw
  | assignEngine e v => exact hI.engines _ _ (set_name _ _ _ hnm) hw

end

end World

end RR32
