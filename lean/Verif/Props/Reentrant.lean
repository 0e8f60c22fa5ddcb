import Verif.Proofs.Reentrant

/-! # C59: ending a request from inside an end-of-stream callback -/

set_option autoImplicit false

namespace RR32

namespace World

/-! ## Abort by reset -/

/-- A request ends or starts a request, so it resets the registered parser. -/
def Resets : Reaction → Prop
  | .finish => True
  | .requestList _ _ => True
  | .attach _ _ => False

/-- The registered parser waits for a packet, and the end callback of its consumer begins, when told of an abort, with a call that resets
the parser. -/
structure Stuck (R : React) (w : World) (n c cb : Nat) : Prop where
  registered : w.station.callbacks.configData = some n
  waiting : (w.parsers n).state = .WAITING_FIRST_PACKET ∨ (w.parsers n).state = .WAITING_DATA_PACKET
  consumer : (w.parsers n).consumer = some c
  callback : (w.consumers c).callback = .obj cb
  reaction : ∃ r rest, R cb false = r :: rest ∧ Resets r

/-- A call of `setStreamAborted` reaches the callback. -/
theorem aborted_called (w : World) (c cb : Nat) (h : (w.consumers c).callback = .obj cb) :
    ∃ w' seen, w.callConsumer ⟨c, .aborted⟩ = .ok w' ∧ w'.log = w.log ++ [.consumer ⟨c, .aborted⟩] ++ [.streamEnd cb c false seen] := by
  cases hc : w.consumers c with
  | app => rw [hc] at h; cases h
  | loco l =>
    rw [hc] at h
    have h : l.streamEndCallback = .obj cb := h
    refine ⟨_, .nothing, by
      unfold callConsumer
      simp only [logAll, hc, LocoConsumer.setStreamAborted, h, Ptr.read, bind, Except.bind]
      rfl, rfl⟩
  | list l =>
    rw [hc] at h
    have h : l.reset.streamEndCallback = .obj cb := h
    refine ⟨_, .list l.reset, by
      unfold callConsumer
      simp only [logAll, hc, LocoListConsumer.setStreamAborted, h, Ptr.read, bind, Except.bind]
      rfl, rfl⟩

theorem resetNotify_stuck {R : React} {w : World} {n c cb : Nat} (h : Stuck R w n c cb) : (w.parsers n).resetNotify = [⟨c, .aborted⟩] := by
  unfold StreamParser.resetNotify StreamParser.notify
  rw [if_pos h.waiting, h.consumer]

theorem stuck_reset (R : React) (k : World → Reaction → Run World) (w : World) (n c cb : Nat) (h : Stuck R w n c cb)
    (hk : ∀ w r, Stuck R w n c cb → Resets r → (k w r).run = none) : (parserResetR R k w n).run = none := by
  apply run_bind_none
  rw [resetNotify_stuck h, List.foldlM_cons]
  apply run_bind_none
  obtain ⟨w', seen, h1, h2⟩ := aborted_called w c cb h.callback
  obtain ⟨a1, a2, -, a4, -⟩ := callConsumer_log w w' _ h1
  obtain ⟨r, rest, h3, h4⟩ := h.reaction
  refine (run_bind_ok (a := w') (by rw [h1]; rfl)).trans ?_
  have : reactions R (w'.log.drop w.log.length) = r :: rest := by rw [drop_log h2]; simp [reactions, h3]
  rw [this, List.foldlM_cons]
  apply run_bind_none
  exact hk w' r ⟨by rw [a2]; exact h.registered, by rw [a1]; exact h.waiting, by rw [a1]; exact h.consumer, by rw [a4]; exact h.callback, h.reaction⟩ h4

theorem stuck_finish (R : React) (k : World → Reaction → Run World) (w : World) (n c cb : Nat) (h : Stuck R w n c cb)
    (hk : ∀ w r, Stuck R w n c cb → Resets r → (k w r).run = none) : (finishR R k w).run = none := by
  unfold finishR
  rw [h.registered]
  exact run_bind_none (stuck_reset R k w n c cb h hk)

theorem stuck_perform (R : React) (depth : Nat) (w : World) (r : Reaction) (n c cb : Nat) (h : Stuck R w n c cb) (hr : Resets r) :
    (perform R depth w r).run = none := by
  induction depth generalizing w r with
  | zero => rfl
  | succ depth ih =>
    cases r with
    | finish => exact stuck_finish R _ w n c cb h ih
    | requestList off p => exact run_bind_none (stuck_finish R _ w n c cb h ih)
    | attach _ _ => cases hr

/-- A stream frame, while the registered parser waits, goes to the parser. -/
theorem handle_waiting (w : World) (n : Nat) (hn : w.station.callbacks.configData = some n) (hp : (w.parsers n).isProcessing = true) (f : CanFrame)
    (hf : Spec.commandOf f = 0x21) : w.station.HandlePacket w.processing f = .ok [.cfgAdd n f.data] := by
  have hp : w.processing = true := by rw [← hp]; simp [World.processing, hn]
  have hneed : Spec.needsEngine f = false := by simp [Spec.needsEngine, hf]
  have hdump : Spec.dumped w.station.callbacks w.processing f = false := by simp [Spec.dumped, hf, hp, hn]
  rw [HandlePacket_eq, if_neg (by rw [hneed]; simp), if_neg (by rw [hdump]; simp)]
  simp only [Spec.reaction, hf, Spec.toward, hn, hp]
  rfl

end World

open World Spec

/-- The calls that reset the registered parser while it waits. -/
inductive AbortsByReset (w : World) (n : Nat) : Op → Prop where
  | begin_ (uuid : U16) (cbs : Callbacks) : AbortsByReset w n (.begin_ uuid cbs)
  | finish : AbortsByReset w n .finish
  | abort : AbortsByReset w n .abort
  | notifyReceived : AbortsByReset w n .notifyReceived
  | requestEngineList (offset : Byte) (p : Option Nat) : AbortsByReset w n (.requestEngineList offset p)
  | parserReset : AbortsByReset w n (.parserReset n)
  | badPacket (d : Data) (h : resets (w.parsers n) d = true) : AbortsByReset w n (.parserAdd n d)
  | badFrame (f : CanFrame) (hf : commandOf f = 0x21) (h : resets (w.parsers n) f.data = true) : AbortsByReset w n (.handle f)

/-- C59 is false. If the registered parser waits for a packet, and the end callback of its consumer, told of an abort, calls
`notifyConfigStreamReceived` (or another function that ends the request), then every call that resets the parser, a malformed frame
included, recurses until the stack is exhausted, however large it is. -/
theorem C59_false (R : React) (w : World) (n c cb : Nat) (h : Stuck R w n c cb) (op : Op) (ho : AbortsByReset w n op) (depth : Nat) :
    (stepR R depth w op).Exhausted := by
  have hk := fun w r hs hr => stuck_perform R depth w r n c cb hs hr
  have hfin := stuck_finish R _ w n c cb h hk
  have hadd : ∀ d, resets (w.parsers n) d = true → (parserAddR R (perform R depth) w n d).run = none := by
    intro d hd
    unfold parserAddR
    rw [if_pos hd]
    exact stuck_reset R _ w n c cb h hk
  cases ho with
  | begin_ _ _ => exact run_bind_none hfin
  | finish => exact hfin
  | abort => exact hfin
  | notifyReceived => exact hfin
  | requestEngineList _ _ => exact run_bind_none hfin
  | parserReset => exact stuck_reset R _ w n c cb h hk
  | badPacket d hd => exact hadd d hd
  | badFrame f hf hd =>
    rw [show stepR R depth w (.handle f) = (Run.lift (w.station.HandlePacket w.processing f) >>= fun calls => calls.foldlM (runCallR R depth) w) from rfl,
      Run.Exhausted, run_bind_ok (by rw [run_lift, handle_waiting w n h.registered (h.waiting.elim (fun h => (by simp [StreamParser.isProcessing, h]))
        (fun h => (by simp [StreamParser.isProcessing, h]))) f hf]), List.foldlM_cons]
    exact run_bind_none (hadd f.data hd)

/-- C59, if callbacks leave requests alone when told of an abort, whatever they do when told that a stream is complete: every call, in
every history, returns, with at most two nested callbacks. Missing: callbacks that end the request when told of an abort, for which it is
false if the abort is by a reset (`C59_false`), and true if it is because of the checksum (`C59_after`). -/
theorem C59_returns_partial (R : React) (hR : R.CalmOnAbort) (w : World) (ops : List Op) (depth : Nat) (hd : 2 ≤ depth) :
    (runR R depth w ops).Ends := by
  obtain ⟨d, rfl⟩ : ∃ d, depth = d + 2 := ⟨depth - 2, by omega⟩
  exact ends_foldlM _ _ _ (fun op _ w => ends_stepR R hR d w op)

/-- C59, for streams that end otherwise than by a reset: by completion, or by a wrong checksum. If the end callback then calls
`notifyConfigStreamReceived`, the effect is the same as if the application called it after the call with the last frame. -/
theorem C59_after (R : React) (depth : Nat) (w u : World) (n : Nat) (hn : w.station.callbacks.configData = some n) (f : CanFrame)
    (hf : commandOf f = 0x21) (hp : (w.parsers n).isProcessing = true) (hr : resets (w.parsers n) f.data = false) (hu : w.step (.handle f) = .ok u)
    (hre : reactions R (u.log.drop w.log.length) = [.finish]) (v : World) :
    (stepR R (depth + 1) w (.handle f)).Returns v ↔ u.step .notifyReceived = .ok v := by
  have hcalls := handle_waiting w n hn hp f hf
  have hadd : w.parserAdd n f.data = .ok u := by
    have : w.step (.handle f) = (w.station.HandlePacket w.processing f).bind w.runCalls := rfl
    rw [this, hcalls] at hu
    have hu : (w.parserAdd n f.data).bind .ok = .ok u := hu
    cases h : w.parserAdd n f.data with
    | error e => rw [h] at hu; cases hu
    | ok u' => rw [h] at hu; exact hu
  obtain ⟨h1, h2⟩ := parserAddR_eq R (perform R (depth + 1)) w n f.data hr u hadd
  rw [hre] at h1 h2
  have hst : u.station.callbacks.configData = some n := by rw [(parserAdd_quiet w u n f.data hadd).1]; exact hn
  have hfin := finishR_plain R (perform R depth) u (Or.inr (fun m hm => by
    rw [hst] at hm
    cases hm
    have := h2 (by simp)
    unfold StreamParser.resetNotify
    rw [if_neg]
    rcases this with h | h <;> rw [h] <;> simp)) v
  have e : ((([.finish] : List Reaction).foldlM (perform R (depth + 1)) u) : Run World) = (finishR R (perform R depth) u >>= pure) := rfl
  have hstep : (stepR R (depth + 1) w (.handle f)).run = (finishR R (perform R depth) u).run := by
    rw [show stepR R (depth + 1) w (.handle f) =
        (Run.lift (w.station.HandlePacket w.processing f) >>= fun calls => calls.foldlM (runCallR R (depth + 1)) w) from rfl,
      run_bind_ok (by rw [run_lift, hcalls]), List.foldlM_cons]
    show ((parserAddR R (perform R (depth + 1)) w n f.data) >>= pure : Run World).run = _
    rw [bind_pure, h1, e, bind_pure]
  unfold Run.Returns at hfin ⊢
  rw [hstep]
  exact hfin

/-- C59, exactly, for applications whose callbacks do nothing but end the request: ending the request returns if and only if it does not
abort a stream whose callback, told so, ends the request. -/
theorem C59_exactly (R : React) (hR : ∀ cb b, R cb b = [] ∨ R cb b = [.finish]) (w : World) :
    (∃ depth, (stepR R depth w .notifyReceived).Ends) ↔ ¬∃ n c cb, Stuck R w n c cb := by
  constructor
  · rintro ⟨depth, h⟩ ⟨n, c, cb, hs⟩
    exact h (C59_false R w n c cb hs .notifyReceived .notifyReceived depth)
  · intro h
    refine ⟨0, ?_⟩
    show (finishR R (perform R 0) w).Ends
    unfold finishR
    cases hn : w.station.callbacks.configData with
    | none => exact ends_pure _
    | some n =>
      have hnot : ((w.parsers n).resetNotify.foldlM (callConsumerR R (perform R 0)) w : Run World).Ends := by
        unfold StreamParser.resetNotify StreamParser.notify
        by_cases hw : (w.parsers n).state = .WAITING_FIRST_PACKET ∨ (w.parsers n).state = .WAITING_DATA_PACKET
        · rw [if_pos hw]
          cases hc : (w.parsers n).consumer with
          | none => exact ends_pure _
          | some c =>
            show (callConsumerR R (perform R 0) w ⟨c, .aborted⟩ >>= pure : Run World).Ends
            refine ends_bind (ends_bind (ends_lift _) (fun w' hw' => ?_)) (fun _ _ => ends_pure _)
            rw [run_lift] at hw'
            injection hw' with hw'
            rcases callConsumer_reactions R w w' _ hw' with h1 | ⟨cb, b, h1, h2, h3⟩
            · rw [h1]; exact ends_pure _
            · cases h2
              rcases hR cb false with h4 | h4
              · rw [h3, h4]; exact ends_pure _
              · exact absurd ⟨n, c, cb, hn, hw, hc, h1, .finish, [], h4, trivial⟩ h
        · rw [if_neg hw]
          exact ends_pure _
      exact ends_bind (ends_bind hnot (fun _ _ => ends_bind (ends_lift _) (fun _ _ => ends_pure _))) (fun _ _ => ends_pure _)

/-! ## Callbacks that detach the consumer first -/

/-- A callback, told of an abort, that first detaches the consumer from the parser and then ends the request, returns: the second reset
has nobody to tell. -/
theorem C59_detach (R : React) (w : World) (n c cb : Nat) (hn : w.station.callbacks.configData = some n) (hc : (w.parsers n).consumer = some c)
    (hcb : (w.consumers c).callback = .obj cb) (hR : R cb false = [.attach n none, .finish]) (depth : Nat) :
    (stepR R (depth + 1) w .notifyReceived).Ends := by
  show (finishR R (perform R (depth + 1)) w).Ends
  unfold finishR
  rw [hn]
  have hnot : ((w.parsers n).resetNotify.foldlM (callConsumerR R (perform R (depth + 1))) w : Run World).Ends := by
    unfold StreamParser.resetNotify StreamParser.notify
    by_cases hw : (w.parsers n).state = .WAITING_FIRST_PACKET ∨ (w.parsers n).state = .WAITING_DATA_PACKET
    · rw [if_pos hw, hc]
      show (callConsumerR R (perform R (depth + 1)) w ⟨c, .aborted⟩ >>= pure : Run World).Ends
      refine ends_bind (ends_bind (ends_lift _) (fun w' hw' => ?_)) (fun _ _ => ends_pure _)
      rw [run_lift] at hw'
      injection hw' with hw'
      obtain ⟨a1, a2, -⟩ := callConsumer_log w w' _ hw'
      rcases callConsumer_reactions R w w' _ hw' with h1 | ⟨cb', b, h1, h2, h3⟩
      · rw [h1]; exact ends_pure _
      · cases h2
        rw [hcb] at h1
        cases h1
        rw [h3, hR]
        show (perform R (depth + 1) w' (.attach n none) >>= fun v => perform R (depth + 1) v .finish >>= pure : Run World).Ends
        refine ends_bind (ends_lift _) (fun v hv => ends_bind ?_ (fun _ _ => ends_pure _))
        have hv : w'.step (.parserStart n none) = .ok v := by
          have : (Run.lift (w'.step (.parserStart n none))).run = some (.ok v) := hv
          rw [run_lift] at this
          injection this
        cases hv
        show (finishR R (perform R depth) _).Ends
        unfold finishR
        rw [show (w'.setParser n ((w'.parsers n).startStreamConsumer none)).station.callbacks.configData = some n from by
          show w'.station.callbacks.configData = _
          rw [a2, hn]]
        have hno : ((w'.setParser n ((w'.parsers n).startStreamConsumer none)).parsers n).resetNotify = [] := by
          rw [setParser_get]
          unfold StreamParser.resetNotify StreamParser.notify
          split <;> rfl
        refine ends_bind (ends_bind ?_ (fun _ _ => ends_bind (ends_lift _) (fun _ _ => ends_pure _))) (fun _ _ => ends_pure _)
        rw [hno]
        exact ends_pure _
    · rw [if_neg hw]
      exact ends_pure _
  exact ends_bind (ends_bind hnot (fun _ _ => ends_bind (ends_lift _) (fun _ _ => ends_pure _))) (fun _ _ => ends_pure _)

/-! ## Callbacks that only record -/

theorem RequestEngineList_free (s : Station) (offset : Byte) (p : Option Nat) :
    s.RequestEngineList offset p =
      (s.free.RequestEngineList offset p).map (fun r => (r.1, s.callbacks.configData.toList.map Call.cfgReset ++ r.2)) := by
  unfold Station.RequestEngineList Station.AbortCurrentConfigRequest Station.FinishCurrentConfigRequest Station.free
  cases hc : s.callbacks.configData with
  | none =>
    simp only [bind, Except.bind, Except.map, Option.toList, List.map_nil, List.nil_append]
    repeat' split
    all_goals simp_all
  | some n =>
    simp only [bind, Except.bind, Except.map, Option.toList, List.map_cons, List.map_nil, List.nil_append]
    repeat' split
    all_goals first
      | (simp_all; done)
      | (simp_all
         rename_i h
         subst h
         exact ⟨rfl, rfl⟩)

theorem begin_free (s : Station) (uuid : U16) (cbs : Callbacks) :
    s.begin_ uuid cbs = ((s.free.begin_ uuid cbs).1, s.callbacks.configData.toList.map Call.cfgReset ++ (s.free.begin_ uuid cbs).2) := by
  unfold Station.begin_ Station.AbortCurrentConfigRequest Station.FinishCurrentConfigRequest Station.free
  cases s.callbacks.configData <;> rfl

theorem returns_bind {α β : Type} {x : Run α} {f : α → Run β} {b : β} : (x >>= f).Returns b ↔ ∃ a, x.Returns a ∧ (f a).Returns b := by
  unfold Run.Returns
  constructor
  · intro h
    cases hx : x.run with
    | none => rw [run_bind_none hx] at h; cases h
    | some r =>
      cases r with
      | error e => rw [run_bind_error hx] at h; cases h
      | ok a => rw [run_bind_ok hx] at h; exact ⟨a, rfl, h⟩
  · rintro ⟨a, h1, h2⟩
    rw [run_bind_ok h1, h2]

theorem returns_lift {α : Type} {r : Res α} {a : α} : (Run.lift r).Returns a ↔ r = .ok a := by
  unfold Run.Returns
  rw [run_lift]
  exact ⟨fun h => by injection h, fun h => by rw [h]⟩

theorem returns_foldlM {β γ : Type} (f : β → γ → Run β) (g : β → γ → Res β) (h : ∀ b x c, (f b x).Returns c ↔ g b x = .ok c) (l : List γ) (b c : β) :
    (l.foldlM f b).Returns c ↔ l.foldlM g b = .ok c := by
  induction l generalizing b with
  | nil =>
    constructor
    · intro h; cases h; rfl
    · intro h; cases h; rfl
  | cons x l ih =>
    rw [List.foldlM_cons, List.foldlM_cons, returns_bind]
    constructor
    · rintro ⟨a, h1, h2⟩
      rw [(h b x a).mp h1]
      exact (ih a).mp h2
    · intro hg
      obtain ⟨a, h1, h2⟩ := bind_ok hg
      exact ⟨a, (h b x a).mpr h1, (ih a).mpr h2⟩

/-- A station function that first ends the current request. -/
theorem stationUpdate_free (w v : World) (r : Res (Station × List Call)) :
    w.stationUpdate (r.map (fun r => (r.1, w.station.callbacks.configData.toList.map Call.cfgReset ++ r.2))) = .ok v ↔
      ∃ u, w.step .finish = .ok u ∧ u.stationUpdate r = .ok v := by
  cases r with
  | error e =>
    constructor
    · intro h; cases h
    · rintro ⟨u, -, h⟩; cases h
  | ok r =>
    show (w.withStation r.1).runCalls _ = _ ↔ _
    cases hn : w.station.callbacks.configData with
    | none =>
      rw [step_finish_none w hn]
      constructor
      · intro h; exact ⟨w, rfl, h⟩
      · rintro ⟨u, h1, h2⟩; cases h1; exact h2
    | some n =>
      rw [step_finish_some w n hn, runCalls_append]
      show (((w.withStation r.1).parserReset n).bind .ok).bind _ = _ ↔ _
      rw [parserReset_station]
      cases hp : w.parserReset n with
      | error e =>
        constructor
        · intro h; cases h
        · rintro ⟨u, h1, -⟩; cases h1
      | ok u =>
        constructor
        · intro h; exact ⟨_, rfl, h⟩
        · rintro ⟨u', h1, h2⟩; cases h1; exact h2

theorem parserAdd_resets (w : World) (n : Nat) (d : Data) (h : resets (w.parsers n) d = true) : w.parserAdd n d = w.parserReset n := by
  have : (w.parsers n).addMessage d = (w.parsers n).reset := by
    unfold StreamParser.addMessage
    unfold resets at h
    cases hs : (w.parsers n).state with
    | IDLE => rw [hs] at h; cases h
    | STREAM_DONE => rw [hs] at h; cases h
    | WAITING_FIRST_PACKET =>
      rw [hs] at h
      simp only [decide_eq_true_eq] at h
      simp only [StreamParser.addFirst]
      rw [if_neg (by simp [h])]
      split
      · rfl
      · split
        · rfl
        · next h1 h2 =>
          exfalso
          have e6 : d.dlc.toNat ≠ 6 := fun e => h.1 (BitVec.eq_of_toNat_eq e)
          have e7 : d.dlc.toNat ≠ 7 := fun e => h.2 (BitVec.eq_of_toNat_eq e)
          have h1 : ¬8 ≤ d.dlc.toNat := fun e => h1 (BitVec.le_def.mpr e)
          have h2 : ¬d.dlc.toNat < 6 := fun e => h2 (BitVec.lt_def.mpr e)
          omega
    | WAITING_DATA_PACKET =>
      rw [hs] at h
      simp only [decide_eq_true_eq] at h
      simp only [StreamParser.addData, if_pos h]
  unfold parserAdd parserReset
  rw [this]

theorem parserAddR_plain (R : React) (hR : ∀ cb b, R cb b = []) (k : World → Reaction → Run World) (w v : World) (n : Nat) (d : Data) :
    (parserAddR R k w n d).Returns v ↔ w.parserAdd n d = .ok v := by
  unfold parserAddR
  by_cases hr : resets (w.parsers n) d = true
  · rw [if_pos hr, parserAdd_resets w n d hr]
    exact parserResetR_plain R k w n (Or.inl hR) v
  · rw [if_neg hr, returns_bind]
    unfold parserAdd
    constructor
    · rintro ⟨⟨p, cs⟩, h1, h2⟩
      rw [returns_lift.mp h1]
      have := (callConsumersR_plain R k cs (w.setParser n p) (Or.inl hR)).1
      unfold Run.Returns at h2
      rw [this] at h2
      injection h2
    · intro h
      obtain ⟨⟨p, cs⟩, h1, h2⟩ := bind_ok h
      refine ⟨(p, cs), returns_lift.mpr h1, ?_⟩
      have := (callConsumersR_plain R k cs (w.setParser n p) (Or.inl hR)).1
      unfold Run.Returns
      rw [this]
      exact congrArg some h2

/-- The programs of `Model/World.lean` are those of `Model/Reentrant.lean` whose callbacks do nothing but record: a call returns in the
one if and only if it does so in the other, and with the same state. -/
theorem C59_recording (R : React) (hR : ∀ cb b, R cb b = []) (depth : Nat) (w v : World) (op : Op) :
    (stepR R depth w op).Returns v ↔ w.step op = .ok v := by
  have hfin : ∀ v, (finishR R (perform R depth) w).Returns v ↔ w.step .finish = .ok v := finishR_plain R _ w (Or.inl hR)
  have hfree : ∀ u, w.step .finish = .ok u → u.station = w.station.free := by
    intro u hu
    cases hn : w.station.callbacks.configData with
    | none =>
      rw [step_finish_none w hn] at hu
      cases hu
      unfold Station.free
      rw [← hn]
    | some n =>
      rw [step_finish_some w n hn] at hu
      cases hp : w.parserReset n with
      | error e => rw [hp] at hu; cases hu
      | ok u' => rw [hp] at hu; cases hu; rfl
  cases op with
  | begin_ uuid cbs =>
    show (finishR R (perform R depth) w >>= fun w => Run.lift (w.step (.begin_ uuid cbs))).Returns v ↔ w.stationUpdate (.ok (w.station.begin_ uuid cbs)) = .ok v
    rw [returns_bind, begin_free]
    refine Iff.trans ?_ (stationUpdate_free w v (.ok (w.station.free.begin_ uuid cbs))).symm
    refine exists_congr (fun u => ?_)
    rw [hfin, returns_lift]
    refine and_congr_right (fun hu => ?_)
    show u.stationUpdate (.ok (u.station.begin_ uuid cbs)) = _ ↔ _
    rw [hfree u hu]
  | requestEngineList off p =>
    show (finishR R (perform R depth) w >>= fun w => Run.lift (w.step (.requestEngineList off p))).Returns v ↔
      w.stationUpdate (w.station.RequestEngineList off p) = .ok v
    rw [returns_bind, RequestEngineList_free]
    refine Iff.trans ?_ (stationUpdate_free w v (w.station.free.RequestEngineList off p)).symm
    refine exists_congr (fun u => ?_)
    rw [hfin, returns_lift]
    refine and_congr_right (fun hu => ?_)
    show u.stationUpdate (u.station.RequestEngineList off p) = _ ↔ _
    rw [hfree u hu]
  | finish => exact hfin v
  | abort => exact hfin v
  | notifyReceived => exact hfin v
  | handle f =>
    show (Run.lift (w.station.HandlePacket w.processing f) >>= fun calls => calls.foldlM (runCallR R depth) w).Returns v ↔
      (w.station.HandlePacket w.processing f >>= fun calls => w.runCalls calls) = .ok v
    have hcall : ∀ (w : World) (c : Call) (v : World), (runCallR R depth w c).Returns v ↔ w.runCall c = .ok v := by
      intro w c v
      cases c with
      | cfgAdd n d => exact parserAddR_plain R hR _ w v n d
      | cfgReset n => exact parserResetR_plain R _ w n (Or.inl hR) v
      | _ => exact returns_lift
    rw [returns_bind]
    constructor
    · rintro ⟨calls, h1, h2⟩
      rw [returns_lift.mp h1]
      exact (returns_foldlM _ _ hcall calls w v).mp h2
    · intro h
      obtain ⟨calls, h1, h2⟩ := bind_ok h
      exact ⟨calls, returns_lift.mpr h1, (returns_foldlM _ _ hcall calls w v).mpr h2⟩
  | parserAdd n d => exact parserAddR_plain R hR _ w v n d
  | parserReset n => exact parserResetR_plain R _ w n (Or.inl hR) v
  | _ => exact returns_lift

/-! ## Cases -/

/-- A list consumer with end callback 9, attached to parser 0, which is requested. -/
def caseList9 : LocoListConsumer := { LocoListConsumer.construct with streamEndCallback := .obj 9 }

/-- A new station with a transmit callback, and a request of the engine list. -/
def caseWorld : World :=
  { World.new ⟨32⟩ (fun _ => .list caseList9) (fun _ => Locomotive.construct []) with
    station := { senderHash := 1#16, callbacks := { tx := some 5, configData := some 0 } },
    parsers := fun n => (((World.new ⟨32⟩ (fun _ => .app) (fun _ => Locomotive.construct [])).parsers n).startStreamConsumer (some 7)).startStream }

/-- C59: the application ends the request in its callback. The frame with three bytes is malformed: the stack overflows. -/
example (depth : Nat) : (stepR (fun _ _ => [.finish]) depth caseWorld (.handle { id := ⟨0x420301#32⟩, data := { dlc := 3#8 } })).Exhausted :=
  C59_false _ caseWorld 0 7 9 ⟨rfl, Or.inl rfl, rfl, rfl, .finish, [], rfl, trivial⟩ _ (.badFrame _ (by decide) (by decide)) depth

/-- C59: the first frame announces an empty stream, so it is complete: the call returns, and the request is ended. -/
example : ∃ v, (stepR (fun _ _ => [.finish]) 1 caseWorld (.handle { id := ⟨0x420301#32⟩, data := { dlc := 6#8 } })).Returns v ∧
    v.station.callbacks.configData = none ∧ (v.parsers 0).state = .IDLE ∧ (v.parsers 0).consumer = none := by
  obtain ⟨u, hu, hre⟩ : ∃ u, caseWorld.step (.handle { id := ⟨0x420301#32⟩, data := { dlc := 6#8 } }) = .ok u ∧
      reactions (fun _ _ => [.finish]) (u.log.drop caseWorld.log.length) = [.finish] := ⟨_, rfl, rfl⟩
  have h := C59_after (fun _ _ => [.finish]) 0 caseWorld u 0 rfl { id := ⟨0x420301#32⟩, data := { dlc := 6#8 } } (by decide) (by decide) (by decide) hu hre
  cases hu
  exact ⟨_, (h _).mpr rfl, rfl, rfl, rfl⟩

end RR32
