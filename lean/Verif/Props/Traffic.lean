import Verif.Proofs.Traffic
import Verif.Spec.Traffic
import Verif.Props.EndToEnd

/-! # C61: other traffic does not disturb configuration data, and is not disturbed by it -/

set_option autoImplicit false

namespace RR32

open Spec

/-- All that configuration data is about: the station, the parsers, consumers and engines, and what consumers and end-of-stream callbacks
were told. The log of `u` is contained in the log of `v`. -/
structure SameData (v u : World) : Prop where
  pf : v.pf = u.pf
  station : v.station = u.station
  parsers : v.parsers = u.parsers
  consumers : v.consumers = u.consumers
  engines : v.engines = u.engines
  told : v.log.filter (fun e => !isCall e) = u.log.filter (fun e => !isCall e)
  sub : u.log.Sublist v.log

/-! ## A control call adds calls to the log, and that is all -/

theorem txSend_says (w : World) (cb : Nat) (htx : w.station.callbacks.tx = some cb) (f : CanFrame) :
    w.stationCalls (w.station.txSend f) = .ok (w.logAll ([Call.tx cb f].map .call)) := by
  simp only [Station.txSend, htx]
  exact World.runCalls_tx w cb _ (by intro c hc; exact ⟨f, List.mem_singleton.mp hc⟩)

theorem nothing_says (w : World) : w.stationCalls (.ok []) = .ok (w.logAll (([] : List Call).map .call)) := by
  simp only [World.stationCalls, World.logAll, List.map_nil, List.append_nil]
  rfl

/-- The calls on the application that a frame of another command makes. -/
theorem control_reaction (cbs : Callbacks) (b : Bool) (f : CanFrame) (h : commandOf f ≠ 0x21) :
    reaction cbs b f = reaction cbs false f ∧ ∀ c ∈ reaction cbs b f, (∀ n, c ≠ .cfgStart n) ∧ (∀ n d, c ≠ .cfgAdd n d) ∧ (∀ n, c ≠ .cfgReset n) := by
  have ht : ∀ (o : Option Nat) (g : Nat → Call), (∀ m, (∀ n, g m ≠ .cfgStart n) ∧ (∀ n d, g m ≠ .cfgAdd n d) ∧ (∀ n, g m ≠ .cfgReset n)) →
      ∀ c ∈ toward o g, (∀ n, c ≠ .cfgStart n) ∧ (∀ n d, c ≠ .cfgAdd n d) ∧ (∀ n, c ≠ .cfgReset n) := by
    intro o g hg c hc
    obtain ⟨m, -, rfl⟩ := List.mem_map.mp hc
    exact hg m
  have hn : ∀ c ∈ ([] : List Call), (∀ n, c ≠ .cfgStart n) ∧ (∀ n d, c ≠ .cfgAdd n d) ∧ (∀ n, c ≠ .cfgReset n) := by
    intro c hc; cases hc
  unfold reaction
  constructor
  · split <;> first | rfl | (next h21 => exact absurd h21 h)
  · dsimp only
    repeat' split
    all_goals first | exact hn | (apply ht; intro m; simp; done) | contradiction

theorem World.runCalls_plain (w : World) (cs : List Call)
    (h : ∀ c ∈ cs, (∀ n, c ≠ .cfgStart n) ∧ (∀ n d, c ≠ .cfgAdd n d) ∧ (∀ n, c ≠ .cfgReset n)) :
    w.runCalls cs = .ok (w.logAll (cs.map .call)) := by
  induction cs generalizing w with
  | nil => simp [World.runCalls, World.logAll]; rfl
  | cons c cs ih =>
    have hc := h c (List.mem_cons_self ..)
    have : w.runCall c = .ok (w.logAll [.call c]) := by
      cases c <;> first | rfl | exact absurd rfl (hc.1 _) | exact absurd rfl (hc.2.1 _ _) | exact absurd rfl (hc.2.2 _)
    show (w.runCall c).bind (fun v => v.runCalls cs) = _
    rw [this]
    show (w.logAll [.call c]).runCalls cs = _
    rw [ih _ (fun c hc => h c (List.mem_cons_of_mem _ hc))]
    simp [World.logAll]

/-- What a control call adds depends only on the callbacks other than the registered parser, and on the sender hash. -/
theorem control_says (op : Op) (hop : isControl op = true) (s : Station) (cb : Nat) (htx : s.callbacks.tx = some cb)
    (he : s.callbacks.engine.isSome = true) :
    ∃ cs : List Call, ∀ w : World, s.SameButParser w.station → w.step op = .ok (w.logAll (cs.map .call)) := by
  have tx : ∀ w : World, s.SameButParser w.station → w.station.callbacks.tx = some cb := by
    rintro w ⟨p, hp⟩; rw [hp]; exact htx
  have hash : ∀ w : World, s.SameButParser w.station → w.station.senderHash = s.senderHash := by
    rintro w ⟨p, hp⟩; rw [hp]
  have send : ∀ (g : U16 → CanFrame), ∃ cs : List Call, ∀ w : World, s.SameButParser w.station →
      w.stationCalls (w.station.txSend (g w.station.senderHash)) = .ok (w.logAll (cs.map .call)) := by
    intro g
    exact ⟨[Call.tx cb (g s.senderHash)], fun w hw => by rw [txSend_says w cb (tx w hw), hash w hw]⟩
  cases op with
  | handle f =>
    simp only [isControl, decide_eq_true_eq] at hop
    refine ⟨reaction s.callbacks false f, ?_⟩
    rintro w ⟨p, hp⟩
    have h1 := C11_decision_table w.station w.processing f hop.2 (by rw [hp]; exact he)
    have h2 : reaction w.station.callbacks w.processing f = reaction s.callbacks false f := by
      rw [(control_reaction w.station.callbacks w.processing f hop.1).1, hp]
      unfold reaction
      split <;> rfl
    show w.stationCalls (w.station.HandlePacket w.processing f) = _
    rw [h1, h2]
    exact World.runCalls_plain w _ (control_reaction s.callbacks false f hop.1).2
  | requestDirection e => exact send (fun hash => { id := Identifier.mk' kLocoDirection hash, data := ({ dlc := 4#8 } : Data).setLocid e.uid })
  | sendDirection e d =>
    by_cases hd : d = EngineDirection.FORWARD ∨ d = EngineDirection.REVERSE ∨ d = EngineDirection.CHANGE_DIRECTION
    · obtain ⟨cs, h⟩ := send (fun hash => { Util.LocoDirection false e.uid d with id := (Util.LocoDirection false e.uid d).id.setHash hash })
      refine ⟨cs, fun w hw => ?_⟩
      simp only [World.step, Station.SendEngineDirection, if_pos hd]
      exact h w hw
    · refine ⟨[], fun w hw => ?_⟩
      simp only [World.step, Station.SendEngineDirection, if_neg hd]
      exact nothing_says w
  | requestVelocity e => exact send (fun hash => { id := Identifier.mk' kLocoSpeed hash, data := ({ dlc := 4#8 } : Data).setLocid e.uid })
  | sendVelocity e v => exact send (fun hash => { Util.LocoSpeed false e.uid v with id := (Util.LocoSpeed false e.uid v).id.setHash hash })
  | requestFunction e f =>
    exact send (fun hash => { id := Identifier.mk' kLocoFunction hash, data := { ({ dlc := 5#8 } : Data).setLocid e.uid with b4 := f } })
  | requestAllFunctions e =>
    obtain ⟨frames, h1, h2⟩ := C22_all_functions s cb htx e
    refine ⟨(List.range 16).map (fun k => .tx cb (frames k)), fun w hw => ?_⟩
    have : w.station.RequestEngineAllFunctions e = .ok ((List.range 16).map (fun k => .tx cb (frames k))) := by
      rw [← h1]
      obtain ⟨p, hp⟩ := hw
      rw [hp]
      have : ∀ (n : Nat) (f : CanFrame) (i : Byte), Station.allFunctionsLoop { s with callbacks := { s.callbacks with configData := p } } f n i =
          s.allFunctionsLoop f n i := by
        intro n
        induction n with
        | zero => intro f i; rfl
        | succ n ih =>
          intro f i
          simp only [Station.allFunctionsLoop, ih]
          rfl
      exact this ..
    show w.stationCalls (w.station.RequestEngineAllFunctions e) = _
    rw [this]
    exact World.runCalls_tx w cb _ (by intro c hc; obtain ⟨k, -, rfl⟩ := List.mem_map.mp hc; exact ⟨_, rfl⟩)
  | sendFunction e f v =>
    exact send (fun hash => { Util.LocoFunction false e.uid f v with id := (Util.LocoFunction false e.uid f v).id.setHash hash })
  | sendEmergencyStop e =>
    exact send (fun hash => ⟨Identifier.mk' kSystemCommand hash,
      SystemMessage.setLocid (SystemMessage.setSubcommand (SystemMessage.initData {}) kSubcommandLocoEmergencyStop) e.uid⟩)
  | sendStop => exact send (fun hash => { id := Identifier.mk' kSystemCommand hash, data := { dlc := 5#8, b4 := kSubcommandSystemStop } })
  | sendGo => exact send (fun hash => { id := Identifier.mk' kSystemCommand hash, data := { dlc := 5#8, b4 := kSubcommandSystemGo } })
  | sendAccessory a p d pw =>
    exact send (fun hash => ⟨Identifier.mk' kAccessorySwitch hash,
      TurnoutPacket.setPower (TurnoutPacket.setDirection (TurnoutPacket.setLocid (TurnoutPacket.initData {})
        (a.or (getAccessoryLocIdMask p))) d) (pw != 0#8)⟩)
  | sendPacket f => exact send (fun hash => { f with id := f.id.setHash hash })
  | _ => cases hop

theorem SameData.refl (w : World) : SameData w w := ⟨rfl, rfl, rfl, rfl, rfl, rfl, List.Sublist.refl _⟩

theorem SameData.trans {a b c : World} (h : SameData a b) (g : SameData b c) : SameData a c :=
  ⟨h.pf.trans g.pf, h.station.trans g.station, h.parsers.trans g.parsers, h.consumers.trans g.consumers, h.engines.trans g.engines,
    h.told.trans g.told, g.sub.trans h.sub⟩

theorem calls_filtered (cs : List Call) : (cs.map LogEntry.call).filter (fun e => !isCall e) = [] := by
  rw [List.filter_eq_nil_iff]
  intro e he
  obtain ⟨c, -, rfl⟩ := List.mem_map.mp he
  simp [isCall]

theorem World.before_same (w : World) (a : List LogEntry) (cs : List Call) : SameData (w.before (a ++ cs.map .call)) (w.before a) := by
  refine ⟨rfl, rfl, rfl, rfl, rfl, ?_, ?_⟩
  · simp only [World.before, List.filter_append, calls_filtered, List.append_nil]
  · exact List.Sublist.append_right (List.sublist_append_left ..) _

/-- A history after some control calls, and the same history without them before it. -/
theorem World.run_logAll (w : World) (cs : List Call) (ops : List Op) :
    (∀ u, w.run ops = .ok u → ∃ v, (w.logAll (cs.map .call)).run ops = .ok v ∧ SameData v u) ∧
    (∀ e, w.run ops = .error e → (w.logAll (cs.map .call)).run ops = .error e) := by
  have h1 : w = World.before w.log { w with log := [] } := by simp only [World.before, List.append_nil]
  have h2 : w.logAll (cs.map .call) = World.before (w.log ++ cs.map .call) { w with log := [] } := by
    simp only [World.before, World.logAll, List.append_nil]
  have g1 : w.run ops = (World.run { w with log := [] } ops).map (World.before w.log) := by
    rw [← World.run_before, ← h1]
  rw [g1, h2, World.run_before]
  generalize World.run { w with log := [] } ops = r
  cases r with
  | error x => exact ⟨by intro u h; (cases h), by intro e h; exact h⟩
  | ok x =>
    refine ⟨?_, by intro e h; cases h⟩
    intro u h
    injection h with h
    exact ⟨_, rfl, h ▸ World.before_same ..⟩

/-- C61: whatever an application does with configuration data - requests, stream frames, calls on parsers, consumers and engines - has the
same outcome with and without control traffic in between: the same state, the same notices to consumers and end-of-stream callbacks in
the same order, and the same faults. -/
theorem C61_invisible (ops : List Op) (w : World) (cb : Nat) (htx : w.station.callbacks.tx = some cb)
    (he : w.station.callbacks.engine.isSome = true) (hb : ∀ op ∈ ops, ∀ u cbs, op ≠ .begin_ u cbs) :
    (∀ u, w.run (ops.filter (fun o => !isControl o)) = .ok u → ∃ v, w.run ops = .ok v ∧ SameData v u) ∧
    (∀ e, w.run (ops.filter (fun o => !isControl o)) = .error e → w.run ops = .error e) := by
  induction ops generalizing w with
  | nil => exact ⟨fun u h => ⟨u, h, .refl u⟩, fun e h => h⟩
  | cons op ops ih =>
    have hb' : ∀ op ∈ ops, ∀ u cbs, op ≠ .begin_ u cbs := fun o ho => hb o (List.mem_cons_of_mem _ ho)
    cases hop : isControl op with
    | true =>
      obtain ⟨cs, hcs⟩ := control_says op hop w.station cb htx he
      have hs := hcs w (.refl _)
      rw [List.filter_cons, hop, World.run_cons, hs]
      simp only [Bool.not_true, Bool.false_eq_true, if_false]
      obtain ⟨i1, i2⟩ := ih (w.logAll (cs.map .call)) htx he hb'
      obtain ⟨j1, j2⟩ := World.run_logAll w cs (ops.filter (fun o => !isControl o))
      refine ⟨?_, fun e h => i2 e (j2 e h)⟩
      intro u h
      obtain ⟨v, h1, h2⟩ := j1 u h
      obtain ⟨x, h3, h4⟩ := i1 v h1
      exact ⟨x, h3, h4.trans h2⟩
    | false =>
      rw [List.filter_cons, hop, World.run_cons]
      simp only [Bool.not_false, if_true, World.run_cons]
      cases hs : w.step op with
      | error x => exact ⟨by intro u h; (cases h), by intro e h; exact h⟩
      | ok v =>
        obtain ⟨p, hp⟩ := World.step_same (hb op (List.mem_cons_self ..)) hs
        exact ih v (by rw [hp]; exact htx) (by rw [hp]; exact he) hb'

theorem quiet_filtered {l : List LogEntry} (h : ∀ e ∈ l, e.notCall) : l.filter isCall = [] := by
  rw [List.filter_eq_nil_iff]
  intro e he hc
  have := h e he
  cases e with
  | call c => exact this
  | consumer c => cases hc
  | streamEnd _ _ _ _ => cases hc

/-- What a stream frame does: nothing to the station, nothing but notices in the log. -/
theorem stream_frame_quiet {w v : World} {op : Op} (h : isStreamFrame op = true) (hs : w.step op = .ok v) : World.Quiet w v := by
  cases op with
  | handle f =>
    simp only [isStreamFrame, decide_eq_true_eq] at h
    have hs' : w.stationCalls (w.station.HandlePacket w.processing f) = .ok v := hs
    obtain ⟨cs, h1, h2⟩ := bind_ok hs'
    rw [HandlePacket_eq] at h1
    split at h1
    · cases h1
    · split at h1
      · cases h1
      · injection h1 with h1
        have hr : cs = if w.processing then toward w.station.callbacks.configData (.cfgAdd · f.data) else [] := by
          rw [← h1]; simp only [reaction, h]
        rw [hr] at h2
        split at h2
        · cases hc : w.station.callbacks.configData with
          | none => rw [hc] at h2; cases h2; exact .refl w
          | some n =>
            rw [hc] at h2
            have h3 : (w.parserAdd n f.data).bind .ok = .ok v := h2
            obtain ⟨x, h4, h5⟩ := bind_ok h3
            cases h5
            exact World.parserAdd_quiet _ _ _ _ h4
        · cases h2; exact .refl w
  | _ => cases h

/-- C61: stream frames do not disturb the control traffic either: the application's callbacks are called exactly as if the stream frames
were not there, with the same arguments and in the same order. -/
theorem C61_undisturbed (ops : List Op) (w v : World) (cb : Nat) (htx : w.station.callbacks.tx = some cb)
    (he : w.station.callbacks.engine.isSome = true) (hops : ∀ op ∈ ops, isControl op = true ∨ isStreamFrame op = true) (h : w.run ops = .ok v) :
    ∃ u, w.run (ops.filter isControl) = .ok u ∧ v.log.filter isCall = u.log.filter isCall ∧
      u.parsers = w.parsers ∧ u.consumers = w.consumers ∧ u.engines = w.engines ∧ u.station = w.station ∧ v.station = w.station := by
  suffices hg : ∀ (ops : List Op) (w v w2 : World), w2.station = w.station → w.log.filter isCall = w2.log.filter isCall →
      w.station.callbacks.tx = some cb → w.station.callbacks.engine.isSome = true →
      (∀ op ∈ ops, isControl op = true ∨ isStreamFrame op = true) → w.run ops = .ok v →
      ∃ u, w2.run (ops.filter isControl) = .ok u ∧ v.log.filter isCall = u.log.filter isCall ∧
      u.parsers = w2.parsers ∧ u.consumers = w2.consumers ∧ u.engines = w2.engines ∧ u.station = w2.station ∧ v.station = w2.station from
    hg ops w v w rfl rfl htx he hops h
  clear hops h htx he
  intro ops
  induction ops with
  | nil =>
    intro w v w2 hs hl _ _ _ h
    cases h
    exact ⟨w2, rfl, hl, rfl, rfl, rfl, rfl, hs.symm⟩
  | cons op ops ih =>
    intro w v w2 hs hl htx he hops h
    rw [World.run_cons] at h
    have hops' : ∀ op ∈ ops, isControl op = true ∨ isStreamFrame op = true := fun o ho => hops o (List.mem_cons_of_mem _ ho)
    cases hop : isControl op with
    | true =>
      obtain ⟨cs, hcs⟩ := control_says op hop w.station cb htx he
      rw [hcs w (.refl _)] at h
      rw [List.filter_cons, hop]
      simp only [if_true, World.run_cons]
      rw [hcs w2 (by rw [hs]; exact .refl _)]
      exact ih (w.logAll (cs.map .call)) v (w2.logAll (cs.map .call)) hs (by simp only [World.logAll, List.filter_append, hl]) htx he hops' h
    | false =>
      have hsf : isStreamFrame op = true := by
        rcases hops op (List.mem_cons_self ..) with h | h
        · rw [hop] at h; cases h
        · exact h
      cases hst : w.step op with
      | error x => rw [hst] at h; cases h
      | ok x =>
        rw [hst] at h
        obtain ⟨q1, q2, l, q3, q4⟩ := stream_frame_quiet hsf hst
        rw [List.filter_cons, hop]
        simp only [Bool.false_eq_true, if_false]
        exact ih x v w2 (by rw [q1]; exact hs) (by rw [q3, List.filter_append, quiet_filtered q4, List.append_nil, hl]) (by rw [q1]; exact htx)
          (by rw [q1]; exact he) hops' h

/-! ## Downloads on a busy bus -/

theorem handle_not_begin (fs : List CanFrame) : ∀ op ∈ fs.map Op.handle, ∀ u cbs, op ≠ .begin_ u cbs := by
  intro op h u cbs e
  obtain ⟨f, -, rfl⟩ := List.mem_map.mp h
  cases e

theorem busy_not_begin {ops : List Op} {fs : List CanFrame} (hf : ops.filter (fun o => !isControl o) = fs.map .handle) :
    ∀ op ∈ ops, ∀ u cbs, op ≠ .begin_ u cbs := by
  intro op ho u cbs e
  subst e
  have : Op.begin_ u cbs ∈ ops.filter (fun o => !isControl o) := List.mem_filter.mpr ⟨ho, rfl⟩
  rw [hf] at this
  exact handle_not_begin fs _ this u cbs rfl

/-- C61: an engine is downloaded although frames of other commands arrive and commands are sent in between. -/
theorem C61_engine_download (w : World) (h : Sound w) (ht : Tidy w) (hpf : 32 ≤ w.pf.longBits) (tx : Nat) (htx : w.station.callbacks.tx = some tx)
    (hen : w.station.callbacks.engine.isSome = true)
    (n c e cb : Nat) (l : LocoConsumer) (hc : w.consumers c = .loco l) (he : l.currentEngine = .obj e) (hcb : l.streamEndCallback = .obj cb)
    (hname : Terminated (w.engines e).info.name) (hprot : (w.engines e).protocol.length = 8)
    (hreg : w.station.callbacks.configData ≠ some n) (op : Op) (hr : Requests w n op) (first : CanFrame) (rest : List CanFrame)
    (items : List Item) (tail : Tail) (hw : WireStream first rest items tail) (uid address : U32) (protocol : List Byte)
    (hfile : EngineFile (entriesOf [] items) uid address protocol)
    (ops : List Op) (hops : ops.filter (fun o => !isControl o) = (first :: rest).map .handle) :
    ∃ v u, w.run [.parserStart n (some c), op] = .ok v ∧ v.run ops = .ok u ∧
      (u.engines e).data.uid = uid ∧ (u.engines e).data.address = ⟨address⟩ ∧ cstr (u.engines e).protocol = .ok protocol ∧
      (u.engines e).isFullDetailsKnown = true ∧ (u.engines e).info.name = (w.engines e).info.name ∧
      (u.engines e).data.velocity = (w.engines e).data.velocity ∧ (u.engines e).data.direction = (w.engines e).data.direction ∧
      (u.engines e).data.functionBits = (w.engines e).data.functionBits ∧ (∀ m, m ≠ e → u.engines m = w.engines m) ∧
      u.log.filter (fun e => !isCall e) = v.log.filter (fun e => !isCall e) ++
        (calls c ((entriesOf [] items).map .entry ++ [.complete])).map .consumer ++ [.streamEnd cb c true (.engine (u.engines e))] := by
  obtain ⟨v, u, g1, g2, g3, g4, g5, g6, g7, g8, g9, g10, g11, g12⟩ :=
    C49_download_partial w h ht hpf tx htx n c e cb l hc he hcb hname hprot hreg op hr first rest items tail hw uid address protocol hfile
  have hst : w.station.SameButParser v.station := by
    rw [World.run_cons] at g1
    have g1' : (w.setParser n ((w.parsers n).startStreamConsumer (some c))).run [op] = .ok v := g1
    rw [World.run_cons] at g1'
    obtain ⟨x, k1, k2⟩ := bind_ok g1'
    cases k2
    exact World.step_same (w := w.setParser n ((w.parsers n).startStreamConsumer (some c))) (by intro u cbs e; cases hr <;> cases e) k1
  obtain ⟨p, hp⟩ := hst
  rw [← hops] at g2
  obtain ⟨x, k1, k2⟩ := (C61_invisible ops v tx (by rw [hp]; exact htx) (by rw [hp]; exact hen) (busy_not_begin hops)).1 u g2
  refine ⟨v, x, g1, k1, ?_⟩
  rw [k2.engines]
  refine ⟨g3, g4, g5, g6, g7, g8, g9, g10, g11, ?_⟩
  rw [k2.told, g12]
  simp only [List.filter_append]
  congr 1
  congr 1
  rw [List.filter_eq_self]
  intro y hy
  obtain ⟨z, -, rfl⟩ := List.mem_map.mp hy
  rfl

/-- C61: the engine list is downloaded although frames of other commands arrive and commands are sent in between. -/
theorem C61_list_download (w : World) (h : Sound w) (ht : Tidy w) (hpf : 9 ≤ w.pf.longBits) (tx : Nat) (htx : w.station.callbacks.tx = some tx)
    (hen : w.station.callbacks.engine.isSome = true)
    (n c cb : Nat) (l : LocoListConsumer) (hc : w.consumers c = .list l) (hempty : Shows l []) (hcb : l.streamEndCallback = .obj cb)
    (hreg : w.station.callbacks.configData ≠ some n) (op : Op) (hr : Requests w n op) (first : CanFrame) (rest : List CanFrame)
    (items : List Item) (tail : Tail) (hw : WireStream first rest items tail) (ns : List (List Byte)) (count : Byte)
    (hfile : ListFile (entriesOf [] items) ns count)
    (ops : List Op) (hops : ops.filter (fun o => !isControl o) = (first :: rest).map .handle) :
    ∃ v u d, w.run [.parserStart n (some c), op] = .ok v ∧ v.run ops = .ok u ∧ u.consumers c = .list d ∧
      Shows d (ns.take 2) ∧ d.numEnginesKnownByMaster = some count ∧ d.streamComplete = some true ∧ u.engines = w.engines ∧
      u.log.filter (fun e => !isCall e) = v.log.filter (fun e => !isCall e) ++
        (calls c ((entriesOf [] items).map .entry ++ [.complete])).map .consumer ++ [.streamEnd cb c true (.list d)] := by
  obtain ⟨v, u, d, g1, g2, g3, g4, g5, g6, g7, g8⟩ :=
    C51_download_partial w h ht hpf tx htx n c cb l hc hempty hcb hreg op hr first rest items tail hw ns count hfile
  have hst : w.station.SameButParser v.station := by
    rw [World.run_cons] at g1
    have g1' : (w.setParser n ((w.parsers n).startStreamConsumer (some c))).run [op] = .ok v := g1
    rw [World.run_cons] at g1'
    obtain ⟨x, k1, k2⟩ := bind_ok g1'
    cases k2
    exact World.step_same (w := w.setParser n ((w.parsers n).startStreamConsumer (some c))) (by intro u cbs e; cases hr <;> cases e) k1
  obtain ⟨p, hp⟩ := hst
  rw [← hops] at g2
  obtain ⟨x, k1, k2⟩ := (C61_invisible ops v tx (by rw [hp]; exact htx) (by rw [hp]; exact hen) (busy_not_begin hops)).1 u g2
  refine ⟨v, x, d, g1, k1, by rw [k2.consumers]; exact g3, g4, g5, g6, by rw [k2.engines]; exact g7, ?_⟩
  rw [k2.told, g8]
  simp only [List.filter_append]
  congr 1
  congr 1
  rw [List.filter_eq_self]
  intro y hy
  obtain ⟨z, -, rfl⟩ := List.mem_map.mp hy
  rfl

/-! ## Cases -/

/-- C61: the stream of `[a].b=c⏎`, with a velocity frame and a function frame from the bus between its packets, and a velocity sent by the
application: the consumer is told the same, and the engine callback and the bus see the control traffic. -/
def busyOps : List Op :=
  [.handle { id := ⟨0x080301#32⟩, data := { dlc := 6#8, b3 := 7#8, b5 := 100#8 } }, .handle caseFrames.1, .sendVelocity { uid := 5#32 } 9#16] ++
    caseFrames.2.map .handle ++ [.handle { id := ⟨0x0C0301#32⟩, data := { dlc := 6#8, b3 := 7#8, b5 := 1#8 } }]

def busyWorld : World :=
  { World.new ⟨32⟩ (fun _ => .app) (fun _ => Locomotive.construct []) with station := { callbacks := { tx := some 1, engine := some 2 } } }

/-- What the log says, without the buffers. -/
def brief (e : LogEntry) : Option (Nat × Nat) :=
  match e with
  | .call (.setLocoVelocity cb u v) => some (cb, u.toNat + v.toNat)
  | .call (.setLocoFunction cb u _ _) => some (cb, u.toNat)
  | .call (.tx cb f) => some (cb, f.data.dlc.toNat)
  | _ => none

example :
    busyOps.filter (fun o => !isControl o) = (caseFrames.1 :: caseFrames.2).map .handle ∧
    (∀ op ∈ busyOps, isControl op = true ∨ isStreamFrame op = true) ∧
    (match busyWorld.run ([.parserStart 0 (some 7), .requestShortInfo { availability := .NAME_KNOWN, name := str "x" ++ [0#8] } (some 0)] ++ busyOps) with
      | .ok u => u.log.map brief
      | .error _ => []) =
      [some (1, 8), some (1, 8), some (1, 8), some (2, 107), some (1, 6), none, none, some (2, 7)] := by
  refine ⟨by rfl, ?_, ?_⟩
  · intro op h
    simp only [busyOps, caseFrames, List.map_cons, List.map_nil, List.cons_append, List.nil_append, List.mem_cons, List.not_mem_nil, or_false] at h
    rcases h with rfl | rfl | rfl | rfl | rfl <;> decide
  · decide +kernel

end RR32
