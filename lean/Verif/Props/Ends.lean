import Verif.Props.Sending
import Verif.Props.Uninit

/-!
# No more ends than streams

C44 counts the ends of one parser. Here: a station with any parsers, consumers and callbacks that call nothing or only send.
-/

set_option autoImplicit false

namespace RR32

namespace Spec

/-- The streams a call starts: one if it is `startStream()`, or a request that names a parser. -/
def streamsBegun : Op → Nat
  | .parserStartStream _ | .requestEngine _ (some _) | .requestShortInfo _ (some _) | .requestEngineList _ (some _) => 1
  | _ => 0

/-- A consumer is told that a stream is complete or aborted. -/
def saysEnd : LogEntry → Bool
  | .consumer ⟨_, .complete⟩ | .consumer ⟨_, .aborted⟩ => true
  | _ => false

/-- An end-of-stream callback is called. -/
def callsEnd : LogEntry → Bool
  | .streamEnd .. => true
  | _ => false

end Spec

namespace World

open Spec (saysEnd callsEnd streamsBegun)

/-- Every parser is between calls; those that are processing are among `s`, and with them there are no more ends than `k`. -/
structure Tally (w : World) (k : Nat) (b : Nat × Nat) : Prop where
  parsers : ∀ n, ∃ s, SInv (w.parsers n) s
  ends : ∃ s : List Nat, (∀ n, (w.parsers n).isProcessing = true → n ∈ s) ∧ w.log.countP saysEnd + s.length ≤ k
  calls : w.log.countP callsEnd + b.1 ≤ w.log.countP saysEnd + b.2

theorem Tally.mono {w : World} {k k' : Nat} {b : Nat × Nat} (h : Tally w k b) (hk : k ≤ k') : Tally w k' b :=
  ⟨h.parsers, let ⟨s, h1, h2⟩ := h.ends; ⟨s, h1, by omega⟩, h.calls⟩

/-- Consumers are told `cs`. -/
theorem callConsumers_tally (cs : List ConsumerCall) (w w' : World) (h : w.callConsumers cs = .ok w') :
    w'.parsers = w.parsers ∧
      w'.log.countP saysEnd = w.log.countP saysEnd + ((cs.map noticeOf).filter (fun n => n.2.isEnd)).length ∧
      w'.log.countP callsEnd + w.log.countP saysEnd ≤ w'.log.countP saysEnd + w.log.countP callsEnd := by
  induction cs generalizing w with
  | nil => cases h; exact ⟨rfl, rfl, by omega⟩
  | cons c cs ih =>
    rw [World.callConsumers_cons] at h
    obtain ⟨v, h1, h2⟩ := bind_ok h
    obtain ⟨g, -, -, -, l, g1, g2⟩ := World.callConsumer_log w v c h1
    obtain ⟨k1, k2, k3⟩ := ih v h2
    have e : v.log.countP saysEnd = w.log.countP saysEnd + (if (noticeOf c).2.isEnd then 1 else 0) ∧
        v.log.countP callsEnd ≤ w.log.countP callsEnd + (if (noticeOf c).2.isEnd then 1 else 0) := by
      obtain ⟨n, a⟩ := c
      rw [g1]
      rcases g2 with rfl | ⟨cb, b, seen, -, hb, rfl⟩
      · cases a <;> simp [List.countP_cons, saysEnd, callsEnd, noticeOf, Spec.Notice.isEnd]
      · cases a <;> simp [ConsumerAction.end?] at hb <;> simp [List.countP_cons, saysEnd, callsEnd, noticeOf, Spec.Notice.isEnd]
    refine ⟨k1.trans g, ?_, by omega⟩
    rw [k2, e.1, List.map_cons, List.filter_cons]
    split
    · rw [List.length_cons]; omega
    · omega

/-- A call on a parser. -/
theorem parser_tally {w w' : World} {k : Nat} {b : Nat × Nat} (h : Tally w k b) (n : Nat) (op : StreamOp)
    (hw : (do let (p, calls) ← streamStep (w.parsers n) op; (w.setParser n p).callConsumers calls) = .ok w') : Tally w' (k + op.starts) b := by
  obtain ⟨s, hs⟩ := h.parsers n
  obtain ⟨q, calls, s', h1, h2, -, h3, -⟩ := stream_step (w.parsers n) s hs op
  rw [h1] at hw
  obtain ⟨k1, k2, k3⟩ := callConsumers_tally calls _ _ hw
  obtain ⟨l, l1, l2⟩ := h.ends
  have hl : (w.setParser n q).log = w.log := rfl
  have hp : ∀ m, w'.parsers m = if m = n then q else w.parsers m := fun m => by rw [k1]; rfl
  rw [hl] at k2 k3
  refine ⟨fun m => ?_, ?_, by have := h.calls; omega⟩
  · rw [hp]
    split
    · exact ⟨s', h2⟩
    · exact h.parsers m
  · by_cases hq : q.isProcessing = true
    · by_cases hn : n ∈ l
      · refine ⟨l, fun m hm => ?_, ?_⟩
        · rw [hp] at hm
          split at hm
          · rename_i e; rw [e]; exact hn
          · exact l1 m hm
        · rw [if_pos hq] at h3
          split at h3 <;> omega
      · refine ⟨n :: l, fun m hm => ?_, ?_⟩
        · rw [hp] at hm
          split at hm
          · rename_i e; rw [e]; exact List.mem_cons_self
          · exact List.mem_cons_of_mem _ (l1 m hm)
        · rw [if_pos hq, if_neg (fun e => hn (l1 n e))] at h3
          rw [List.length_cons]
          omega
    · refine ⟨l.erase n, fun m hm => ?_, ?_⟩
      · rw [hp] at hm
        split at hm
        · exact absurd hm hq
        · rename_i e
          exact (List.mem_erase_of_ne e).mpr (l1 m hm)
      · rw [if_neg hq] at h3
        split at h3
        · rename_i e
          have hn := l1 n e
          have := List.length_erase_of_mem hn
          have := List.length_pos_of_mem hn
          omega
        · have := List.length_erase_le (a := n) (l := l)
          omega

/-- A call of the station that starts a stream. -/
def isStart : Call → Bool
  | .cfgStart _ => true
  | _ => false

theorem runCalls_tally (cs : List Call) {w w' : World} {k : Nat} {b : Nat × Nat} (h : Tally w k b) (hw : w.runCalls cs = .ok w') : Tally w' (k + cs.countP isStart) b := by
  induction cs generalizing w k with
  | nil => cases hw; exact h
  | cons c cs ih =>
    unfold World.runCalls at hw
    rw [List.foldlM_cons] at hw
    obtain ⟨v, h1, h2⟩ := bind_ok hw
    have other : ∀ c, Tally (w.logAll [.call c]) k b := by
      intro c
      have e : ∀ p : LogEntry → Bool, p (.call c) = false → (w.logAll [.call c]).log.countP p = w.log.countP p := by
        intro p hp
        show (w.log ++ [LogEntry.call c]).countP p = _
        simp [hp]
      refine ⟨h.parsers, ?_, ?_⟩
      · rw [e _ rfl]; exact h.ends
      · rw [e _ rfl, e _ rfl]; exact h.calls
    have hv : Tally v (k + (if isStart c then 1 else 0)) b := by
      cases c with
      | cfgStart n =>
        refine parser_tally h n .start ?_
        rw [← h1]
        rfl
      | cfgAdd n d => exact parser_tally h n (.add d) h1
      | cfgReset n => exact parser_tally h n .reset h1
      | _ => cases h1; exact other _
    have := ih hv h2
    rw [List.countP_cons]
    exact this.mono (by omega)

theorem txSend_starts (s : Station) (f : CanFrame) (cs : List Call) (h : s.txSend f = .ok cs) : cs.countP isStart = 0 := by
  unfold Station.txSend at h
  split at h
  · cases h
  · cases h; rfl

theorem abort_starts (s : Station) : s.AbortCurrentConfigRequest.2.countP isStart = 0 := by
  unfold Station.AbortCurrentConfigRequest Station.FinishCurrentConfigRequest
  split <;> rfl

theorem requestEngineList_starts (s s' : Station) (off : Byte) (p : Option Nat) (cs : List Call) (h : s.RequestEngineList off p = .ok (s', cs)) :
    cs.countP isStart ≤ if p.isSome then 1 else 0 := by
  unfold Station.RequestEngineList at h
  have ha := abort_starts s
  generalize s.AbortCurrentConfigRequest = a at h ha
  obtain ⟨s1, c1⟩ := a
  dsimp only at h ha
  obtain ⟨_, -, h⟩ := bind_ok h
  obtain ⟨⟨_, _⟩, -, h⟩ := bind_ok h
  dsimp only at h
  split at h
  · obtain ⟨t1, h1, h⟩ := bind_ok h
    obtain ⟨t2, h2, h⟩ := bind_ok h
    cases h
    have h1 := txSend_starts _ _ _ h1
    have h2 := txSend_starts _ _ _ h2
    simp only [List.countP_append, ha, h1, h2]
    cases p <;> simp [isStart]
  · cases h
    simp [ha]

theorem requestEngine_starts (s s' : Station) (pr : Bool) (i : ShortInfo) (p : Option Nat) (cs : List Call)
    (h : s.RequestEngine pr i p = .ok (s', cs)) : cs.countP isStart ≤ if p.isSome then 1 else 0 := by
  unfold Station.RequestEngine at h
  have ha := abort_starts s
  generalize s.AbortCurrentConfigRequest = a at h ha
  obtain ⟨s1, c1⟩ := a
  dsimp only at h ha
  split at h
  · cases h; simp
  · split at h
    · cases h; simp
    · obtain ⟨_, -, h⟩ := bind_ok h
      obtain ⟨t1, h1, h⟩ := bind_ok h
      obtain ⟨_, -, h⟩ := bind_ok h
      obtain ⟨_, -, h⟩ := bind_ok h
      obtain ⟨t2, h2, h⟩ := bind_ok h
      obtain ⟨_, -, h⟩ := bind_ok h
      obtain ⟨t3, h3, h⟩ := bind_ok h
      cases h
      have h1 := txSend_starts _ _ _ h1
      have h2 := txSend_starts _ _ _ h2
      have h3 := txSend_starts _ _ _ h3
      simp only [List.countP_append, ha, h1, h2, h3]
      cases p <;> simp [isStart]

/-- One call. -/
theorem step_tally {w w' : World} {k : Nat} {b : Nat × Nat} (h : Tally w k b) (op : Op) (hw : w.step op = .ok w') : Tally w' (k + streamsBegun op) b := by
  have calls : ∀ (r : Res (List Call)) (m : Nat), (∀ cs, r = .ok cs → cs.countP isStart ≤ m) → w.stationCalls r = .ok w' → Tally w' (k + m) b := by
    intro r m hr hw
    obtain ⟨cs, h1, h2⟩ := bind_ok hw
    exact (runCalls_tally cs h h2).mono (by have := hr cs h1; omega)
  have update : ∀ (r : Res (Station × List Call)) (m : Nat), (∀ s cs, r = .ok (s, cs) → cs.countP isStart ≤ m) → w.stationUpdate r = .ok w' →
      Tally w' (k + m) b := by
    intro r m hr hw
    obtain ⟨⟨s, cs⟩, h1, h2⟩ := bind_ok hw
    have h' : Tally { w with station := s } k b := ⟨h.parsers, h.ends, h.calls⟩
    exact (runCalls_tally cs h' h2).mono (by have := hr s cs h1; omega)
  have one : ∀ (s : Station) (f : CanFrame) cs, s.txSend f = .ok cs → cs.countP isStart ≤ 0 := fun s f cs h => (txSend_starts s f cs h).le
  have only : ∀ cs : List Call, (∀ c ∈ cs, isStart c = false) → cs.countP isStart ≤ 0 := by
    intro cs hc
    rw [Nat.le_zero, List.countP_eq_zero]
    intro c h
    rw [hc c h]
    simp
  have same : ∀ x : World, x.parsers = w.parsers → x.log = w.log → Tally x (k + 0) b :=
    fun x h1 h2 => ⟨by rw [h1]; exact h.parsers, by rw [h1, h2]; exact h.ends, by rw [h2]; exact h.calls⟩
  cases op with
  | begin_ u c => refine update _ 0 (fun s cs e => ?_) hw; cases e; exact (abort_starts _).le
  | handle f =>
    refine calls _ 0 (fun cs e => only cs (fun c hc => ?_)) hw
    have := (C14_no_tx _ _ f cs e c hc).2.1
    cases c with
    | cfgStart n => exact absurd rfl (this n)
    | _ => rfl
  | finish =>
    refine update _ 0 (fun s cs e => ?_) hw
    injection e with e
    have : cs = w.station.FinishCurrentConfigRequest.2 := by rw [e]
    rw [this]
    unfold Station.FinishCurrentConfigRequest
    split <;> exact Nat.le_refl 0
  | abort =>
    refine update _ 0 (fun s cs e => ?_) hw
    injection e with e
    have : cs = w.station.AbortCurrentConfigRequest.2 := by rw [e]
    rw [this]
    exact (abort_starts _).le
  | notifyReceived =>
    refine update _ 0 (fun s cs e => ?_) hw
    injection e with e
    have : cs = w.station.notifyConfigStreamReceived.2 := by rw [e]
    rw [this]
    unfold Station.notifyConfigStreamReceived
    exact (abort_starts _).le
  | requestEngine e p =>
    have := update _ _ (fun s cs e => requestEngine_starts _ s _ _ p cs e) hw
    cases p <;> exact this
  | requestShortInfo e p =>
    have := update _ _ (fun s cs e => requestEngine_starts _ s _ _ p cs e) hw
    cases p <;> exact this
  | requestEngineList e p =>
    have := update _ _ (fun s cs e => requestEngineList_starts _ s _ p cs e) hw
    cases p <;> exact this
  | requestDirection e => exact calls _ 0 (one _ _) hw
  | sendDirection e d =>
    refine calls _ 0 (fun cs h => ?_) hw
    unfold Station.SendEngineDirection at h
    split at h
    · exact one _ _ _ h
    · cases h; exact Nat.le_refl 0
  | requestVelocity e => exact calls _ 0 (one _ _) hw
  | sendVelocity e d => exact calls _ 0 (one _ _) hw
  | requestFunction e d => exact calls _ 0 (one _ _) hw
  | requestAllFunctions e =>
    refine calls _ 0 (fun cs h => only cs (fun c hc => ?_)) hw
    obtain ⟨cb, g, rfl⟩ := allFunctionsLoop_tx _ _ _ _ cs h c hc
    rfl
  | sendFunction e d v => exact calls _ 0 (one _ _) hw
  | sendEmergencyStop e => exact calls _ 0 (one _ _) hw
  | sendStop => exact calls _ 0 (one _ _) hw
  | sendGo => exact calls _ 0 (one _ _) hw
  | sendAccessory a p d pw => exact calls _ 0 (one _ _) hw
  | sendPacket f => exact calls _ 0 (one _ _) hw
  | parserStart n c => refine parser_tally h n (.attach c) ?_; rw [← hw]; rfl
  | parserStartStream n => refine parser_tally h n .start ?_; rw [← hw]; rfl
  | parserAdd n d => exact parser_tally h n (.add d) hw
  | parserReset n => exact parser_tally h n .reset hw
  | setEngine c e => simp only [World.step] at hw; split at hw <;> cases hw <;> exact same _ rfl rfl
  | setEndCallback c e => simp only [World.step] at hw; split at hw <;> cases hw <;> exact same _ rfl rfl
  | setStreamOffset c e => simp only [World.step] at hw; split at hw <;> cases hw <;> exact same _ rfl rfl
  | clearTable c => simp only [World.step] at hw; split at hw <;> cases hw <;> exact same _ rfl rfl
  | resetList c => simp only [World.step] at hw; split at hw <;> cases hw <;> exact same _ rfl rfl
  | setName e name => obtain ⟨l, -, hw⟩ := bind_ok hw; cases hw; exact same _ rfl rfl
  | assignEngine e l => cases hw; exact same _ rfl rfl

theorem run_tally (ops : List Op) {w w' : World} {k : Nat} {b : Nat × Nat} (h : Tally w k b) (hw : w.run ops = .ok w') :
    Tally w' (k + (ops.map streamsBegun).sum) b := by
  induction ops generalizing w k with
  | nil => cases hw; exact h
  | cons op ops ih =>
    unfold World.run at hw
    rw [List.foldlM_cons] at hw
    obtain ⟨v, h1, h2⟩ := bind_ok hw
    rw [List.map_cons, List.sum_cons, ← Nat.add_assoc]
    exact ih (step_tally h op h1) h2

/-- C105. In every history of a station with any parsers, consumers and callbacks that only send, in which no stream was open before: the
consumers are told of no more ends of streams than streams were started, and those still open count too; an end-of-stream callback is
called at most once for each such end. -/
theorem C105_ends (P : Program) (hP : ∀ w e, ∀ op ∈ P w e, Spec.OnlySends op) (depth : Nat) (w v : World) (ops : List Op)
    (hr : ∀ n, ReachableStream (w.parsers n)) (hq : ∀ n, (w.parsers n).isProcessing = false) (h : (runN P depth w ops).Returns v)
    (opened : List Nat) (ho : opened.Nodup) (hp : ∀ n ∈ opened, (v.parsers n).isProcessing = true) :
    v.log.countP saysEnd + opened.length ≤ w.log.countP saysEnd + (ops.map streamsBegun).sum ∧
      v.log.countP callsEnd + w.log.countP saysEnd ≤ v.log.countP saysEnd + w.log.countP callsEnd := by
  obtain ⟨u, hu, -, hpars, -, -, -, hlog⟩ := C104_only_sends P hP depth w v ops h
  have count : ∀ p : LogEntry → Bool, (∀ c, p (.call c) = false) → v.log.countP p = u.log.countP p := by
    intro p hc
    have e : ∀ l : List LogEntry, l.countP p = (l.filter (fun | .call _ => false | _ => true)).countP p := by
      intro l
      rw [List.countP_filter]
      refine List.countP_congr (fun x _ => ?_)
      cases x <;> simp [hc]
    rw [e v.log, e u.log]
    exact congrArg (List.countP p) hlog
  have start : Tally w (w.log.countP saysEnd) (w.log.countP saysEnd, w.log.countP callsEnd) :=
    ⟨fun n => reachable_sinv _ (hr n), ⟨[], fun n hn => (by rw [hq n] at hn; cases hn), by simp⟩, by dsimp only; omega⟩
  have final := run_tally ops start hu
  rw [count _ (fun _ => rfl), count _ (fun _ => rfl)]
  refine ⟨?_, final.calls⟩
  obtain ⟨s, h1, h2⟩ := final.ends
  have : opened.length ≤ s.length := (List.subperm_of_subset ho (fun n hn => h1 n (by rw [← hpars]; exact hp n hn))).length_le
  omega

/-- Consumer 7 calls `reset()` of parser 0 whenever it is told of an abort and not more than `m` ends were told so far. -/
def insists (m : Nat) : Program := fun w e =>
  match e with
  | .consumer ⟨7, .aborted⟩ => if w.log.countP saysEnd ≤ m then [.parserReset 0] else []
  | _ => []

theorem insists_reset (m j d : Nat) (w : World) (hj : j ≤ d) (hs : ∃ s, SInv (w.parsers 0) s) (hp : (w.parsers 0).state = .WAITING_FIRST_PACKET)
    (hc : (w.parsers 0).consumer = some 7) (ha : w.consumers 7 = .app) (hm : w.log.countP saysEnd + j = m) :
    ∃ v, (parserResetN (insists m) (nested (insists m) d) w 0).Returns v ∧ v.log.countP saysEnd = m + 1 ∧ ∃ s, SInv (v.parsers 0) s := by
  induction j generalizing d w with
  | zero => ?_
  | succ j ih => ?_
  all_goals
    have hn : (w.parsers 0).resetNotify = [⟨7, .aborted⟩] := by
      unfold StreamParser.resetNotify StreamParser.notify
      rw [hp, hc]
      rfl
    have hcall : w.callConsumer ⟨7, .aborted⟩ = .ok (w.logAll [.consumer ⟨7, .aborted⟩]) := by
      unfold World.callConsumer
      dsimp only
      rw [show (w.logAll [.consumer ⟨7, .aborted⟩]).consumers 7 = .app from ha]
    have hcount : (w.logAll [.consumer ⟨7, .aborted⟩]).log.countP saysEnd = w.log.countP saysEnd + 1 := by
      show (w.log ++ [LogEntry.consumer ⟨7, .aborted⟩]).countP saysEnd = _
      simp [saysEnd]
    have hdrop : (((w.logAll [.consumer ⟨7, .aborted⟩]).log.drop w.log.length).filter w.reachesApp) = [.consumer ⟨7, .aborted⟩] := by
      show ((w.log ++ [LogEntry.consumer ⟨7, .aborted⟩]).drop w.log.length).filter w.reachesApp = _
      rw [List.drop_left, List.filter_cons_of_pos]
      · rfl
      · show (w.consumers 7 == .app) = true
        rw [ha]
        rfl
    have final : ∀ u, (react (insists m) (nested (insists m) d) (w.logAll [.consumer ⟨7, .aborted⟩]) (.consumer ⟨7, .aborted⟩)).Returns u →
        u.log.countP saysEnd = m + 1 → (∃ s, SInv (u.parsers 0) s) →
        ∃ v, (parserResetN (insists m) (nested (insists m) d) w 0).Returns v ∧ v.log.countP saysEnd = m + 1 ∧ ∃ s, SInv (v.parsers 0) s := by
      intro u hu h1 ⟨s, h2⟩
      have hclear : (u.parsers 0).resetClear = .ok cleared := by
        unfold StreamParser.resetClear
        rw [h2.text.eq, reset_conc s h2.text.fits]
        rfl
      refine ⟨u.setParser 0 cleared, ?_, h1, .start, cleared_sinv⟩
      unfold parserResetN
      refine returns_bind.mpr ⟨u, ?_, returns_bind.mpr ⟨cleared, returns_lift.mpr hclear, returns_pure.mpr rfl⟩⟩
      rw [hn]
      unfold tellConsumers
      rw [List.foldlM_cons]
      refine returns_bind.mpr ⟨u, ?_, returns_pure.mpr rfl⟩
      unfold callConsumerN
      refine returns_bind.mpr ⟨_, returns_lift.mpr hcall, ?_⟩
      rw [hdrop, List.foldlM_cons]
      exact returns_bind.mpr ⟨u, hu, returns_pure.mpr rfl⟩
  · refine final _ (?_ : Run.Returns _ (w.logAll [.consumer ⟨7, .aborted⟩])) (by omega) hs
    have : insists m (w.logAll [.consumer ⟨7, .aborted⟩]) (.consumer ⟨7, .aborted⟩) = [] := if_neg (by omega)
    unfold react
    rw [this]
    exact returns_pure.mpr rfl
  · obtain ⟨d, rfl⟩ : ∃ d', d = d' + 1 := ⟨d - 1, by omega⟩
    obtain ⟨v, h1, h2, h3⟩ := ih d (w.logAll [.consumer ⟨7, .aborted⟩]) (by omega) hs hp hc ha (by omega)
    refine final v ?_ h2 h3
    have : insists m (w.logAll [.consumer ⟨7, .aborted⟩]) (.consumer ⟨7, .aborted⟩) = [.parserReset 0] := if_pos (by omega)
    unfold react
    rw [this, List.foldlM_cons]
    exact returns_bind.mpr ⟨v, h1, returns_pure.mpr rfl⟩

/-- C105 is false for callbacks that reset the parser while they are told of an abort: one stream can have any number of ends, and the calls
all return. -/
theorem C105_unbounded (m : Nat) :
    ∃ v, (runN (insists m) m demoWorld [.parserStart 0 (some 7), .parserStartStream 0, .parserReset 0]).Returns v ∧
      demoWorld.log.countP saysEnd = 0 ∧ v.log.countP saysEnd = m + 1 := by
  obtain ⟨s, hs⟩ := (C58_start ⟨32⟩ (fun _ => .app) (fun _ => Locomotive.construct (List.replicate 8 0#8))).parsers 0
  obtain ⟨v, h1, h2, -⟩ := insists_reset m m m
    ((demoWorld.setParser 0 ((demoWorld.parsers 0).startStreamConsumer (some 7))).setParser 0
      (((demoWorld.parsers 0).startStreamConsumer (some 7)).startStream))
    (Nat.le_refl m) ⟨s, start_sinv _ _ (attach_sinv _ _ hs _)⟩ rfl rfl rfl (by show 0 + m = m; omega)
  refine ⟨v, ?_, rfl, h2⟩
  exact returns_bind.mpr ⟨_, returns_lift.mpr rfl, returns_bind.mpr ⟨_, returns_lift.mpr rfl, returns_bind.mpr ⟨v, h1, returns_pure.mpr rfl⟩⟩⟩

/-- Non-vacuity of `C105_ends`: in the demonstration one stream is started and one end told, with callbacks that send. -/
example : (∀ n, ReachableStream (demoWorld.parsers n)) ∧ (∀ n, (demoWorld.parsers n).isProcessing = false) ∧
    (demoOps.map streamsBegun).sum = 1 ∧
    (match (runN chatty 3 demoWorld demoOps).run with
      | some (.ok v) => some (v.log.countP saysEnd, v.log.countP callsEnd)
      | _ => none) = some (1, 0) := by
  refine ⟨fun n => ?_, fun n => rfl, rfl, by decide +kernel⟩
  exact ⟨List.replicate 31 0#8, List.replicate 11 0#8, List.replicate 11 0#8, List.replicate 26 0#8, _, [], [], rfl, rfl, rfl, rfl,
    construct_rep _ _ _ _ rfl rfl rfl rfl, rfl⟩

end World

end RR32
