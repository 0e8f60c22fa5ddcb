import Verif.Proofs.Lifetime

/-! # C89: objects that are destroyed -/

set_option autoImplicit false

namespace RR32

namespace World

/-- C89: a call uses only what it can reach. If all of that exists, destroyed objects make no difference. -/
theorem C89_reach (live : Obj → Bool) (w : World) (op : Op) (h : ∀ o, Reached w op o → live o = true) :
    w.stepL live op = Out.lift (w.step op) :=
  step_agree (C := Reached w op) h (fun o o' ho hp => .pointer o o' ho hp) (fun o ho => .station o ho) (fun o ho => .mentioned o ho)

/-- C89: no pointers to destroyed objects arise as long as the application mentions only objects that exist. -/
theorem C89_step (live : Obj → Bool) (w w' : World) (op : Op) (hn : NoDangling live w) (hm : ∀ o, Mentions op o → live o = true)
    (h : w.step op = .ok w') : w.stepL live op = .ok w' ∧ NoDangling live w' := by
  refine ⟨?_, ?_, ?_⟩
  · rw [step_agree (C := fun o => live o = true) (fun _ h => h) hn.objects hn.station hm, h]; rfl
  · intro o ho
    exact ((step_points h).1 o ho).elim (hn.station o) (hm o)
  · intro o o' ho hp
    exact ((step_points h).2 o o' hp).elim (hn.objects o o' ho) fun h => hm o' h.2

theorem no_dangling_without {live : Obj → Bool} {w : World} {o : Obj} (hn : NoDangling live w) (hs : ¬w.station.Has o)
    (hp : ∀ o', live o' = true → ¬w.Points o' o) : NoDangling (without live o) w := by
  have hb : ∀ x, without live o x = true ↔ x ≠ o ∧ live x = true := by intro x; simp [without]
  refine ⟨?_, ?_⟩
  · intro x hx
    rw [hb]
    exact ⟨fun h => hs (h ▸ hx), hn.station x hx⟩
  · intro x y hx hxy
    rw [hb] at hx ⊢
    exact ⟨fun h => hp x hx.2 (h ▸ hxy), hn.objects x y hx.2 hxy⟩

/-- C89: a careful program never uses an object that no longer exists, and does what it would do if nothing were destroyed. -/
theorem C89_careful (acts : List Act) : ∀ (live : Obj → Bool) (w : World), NoDangling live w → Careful live w acts →
    (∀ o, w.runL live acts ≠ .error (.dangling o)) ∧ (w.runL live acts).map (·.2) = Out.lift (w.run (callsOf acts)) := by
  induction acts with
  | nil => intro live w _ _; exact ⟨(by intro o h; cases h), rfl⟩
  | cons a acts ih =>
    intro live w hn hc
    cases hc with
    | call _ _ op _ hm h =>
      unfold runL callsOf
      rw [step_agree (C := fun o => live o = true) (fun _ h => h) hn.objects hn.station hm]
      unfold run
      rw [List.foldlM_cons]
      cases hs : w.step op with
      | error e => exact ⟨(by intro o h; cases h), rfl⟩
      | ok w' => exact ih live w' (C89_step live w w' op hn hm hs).2 (h w' hs)
    | destroy _ _ o _ ho hs hp h =>
      have := ih _ w (no_dangling_without hn hs hp) h
      unfold runL callsOf
      rw [check_ok (by intro x hx; rw [List.mem_singleton] at hx; rw [hx]; exact ho)]
      exact this

/-- The calls that end the current request. -/
def Ends (w : World) : Op → Prop
  | .finish | .abort | .notifyReceived | .begin_ _ _ | .requestEngineList _ _ => True
  | .requestEngine e _ => (w.engines e).info.isNameKnown = true ∧ w.processing = false
  | .requestShortInfo i _ => i.isNameKnown = true ∧ w.processing = false
  | _ => False

/-- The calls that ask the parser of the current request whether it is processing. -/
def Asks (w : World) : Op → Prop
  | .handle f => f.id.getCommand = kConfigDataStream
  | .requestEngine e _ => (w.engines e).info.isNameKnown = true
  | .requestShortInfo i _ => i.isNameKnown = true
  | _ => False

theorem finish_some {s : Station} {n : Nat} (h : s.callbacks.configData = some n) :
    s.FinishCurrentConfigRequest = ({ s with callbacks := { s.callbacks with configData := none } }, [.cfgReset n]) := by
  unfold Station.FinishCurrentConfigRequest
  rw [h]

theorem list_reset {s s' : Station} {off : Byte} {p : Option Nat} {calls : List Call} {n : Nat} (hn : s.callbacks.configData = some n)
    (h : s.RequestEngineList off p = .ok (s', calls)) : (∃ rest, calls = .cfgReset n :: rest) ∧ s'.callbacks.configData = p := by
  unfold Station.RequestEngineList at h
  rw [show s.AbortCurrentConfigRequest = s.FinishCurrentConfigRequest from rfl, finish_some hn] at h
  dsimp only at h
  obtain ⟨m1, -, h⟩ := bind_ok h
  obtain ⟨⟨m2, k⟩, -, h⟩ := bind_ok h
  dsimp only at h
  split at h
  · obtain ⟨t1, -, h⟩ := bind_ok h
    obtain ⟨t2, -, h⟩ := bind_ok h
    cases h
    exact ⟨⟨_, rfl⟩, rfl⟩
  · cases h
    exact ⟨⟨_, rfl⟩, rfl⟩

theorem engine_reset {s s' : Station} {i : ShortInfo} {p : Option Nat} {calls : List Call} {n : Nat} (hn : s.callbacks.configData = some n)
    (hk : i.isNameKnown = true) (h : s.RequestEngine false i p = .ok (s', calls)) :
    (∃ rest, calls = .cfgReset n :: rest) ∧ s'.callbacks.configData = p := by
  unfold Station.RequestEngine at h
  rw [show s.AbortCurrentConfigRequest = s.FinishCurrentConfigRequest from rfl, finish_some hn, hk] at h
  simp only [Bool.not_true, Bool.false_eq_true, ↓reduceIte, Bool.and_false] at h
  obtain ⟨m1, -, h⟩ := bind_ok h
  obtain ⟨t1, -, h⟩ := bind_ok h
  obtain ⟨len, -, h⟩ := bind_ok h
  obtain ⟨m2, -, h⟩ := bind_ok h
  obtain ⟨t2, -, h⟩ := bind_ok h
  obtain ⟨d, -, h⟩ := bind_ok h
  obtain ⟨t3, -, h⟩ := bind_ok h
  cases h
  exact ⟨⟨_, rfl⟩, rfl⟩

/-- A call that ends the current request first resets its parser. -/
theorem ends_reset {w : World} {op : Op} {n : Nat} (he : Ends w op) (hn : w.station.callbacks.configData = some n) :
    ∃ r, w.stationDoes op = some r ∧ ∀ s calls, r = .ok (s, calls) → (∃ rest, calls = .cfgReset n :: rest) ∧
      ∀ m, s.Has (.parser m) → Mentions op (.parser m) := by
  cases op with
  | finish =>
    refine ⟨_, rfl, ?_⟩
    intro s calls h
    rw [finish_some hn] at h
    cases h
    exact ⟨⟨_, rfl⟩, fun m hm => by cases hm with | parser _ h => cases h⟩
  | abort =>
    refine ⟨_, rfl, ?_⟩
    intro s calls h
    rw [show w.station.AbortCurrentConfigRequest = w.station.FinishCurrentConfigRequest from rfl, finish_some hn] at h
    cases h
    exact ⟨⟨_, rfl⟩, fun m hm => by cases hm with | parser _ h => cases h⟩
  | notifyReceived =>
    refine ⟨_, rfl, ?_⟩
    intro s calls h
    rw [show w.station.notifyConfigStreamReceived = w.station.FinishCurrentConfigRequest from rfl, finish_some hn] at h
    cases h
    exact ⟨⟨_, rfl⟩, fun m hm => by cases hm with | parser _ h => cases h⟩
  | begin_ u cbs =>
    refine ⟨_, rfl, ?_⟩
    intro s calls h
    unfold Station.begin_ at h
    rw [show w.station.AbortCurrentConfigRequest = w.station.FinishCurrentConfigRequest from rfl, finish_some hn] at h
    cases h
    exact ⟨⟨_, rfl⟩, fun m hm => by cases hm with | parser _ h => exact .beginParser u cbs m h⟩
  | requestEngineList off p =>
    refine ⟨_, rfl, ?_⟩
    intro s calls h
    obtain ⟨h1, h2⟩ := list_reset hn h
    exact ⟨h1, fun m hm => by
      cases hm with
      | parser _ h =>
        rw [h2] at h
        subst h
        exact .listParser off m⟩
  | requestEngine e p =>
    refine ⟨_, rfl, ?_⟩
    intro s calls h
    rw [he.2] at h
    obtain ⟨h1, h2⟩ := engine_reset hn he.1 h
    exact ⟨h1, fun m hm => by
      cases hm with
      | parser _ h =>
        rw [h2] at h
        subst h
        exact .requestParser e m⟩
  | requestShortInfo i p =>
    refine ⟨_, rfl, ?_⟩
    intro s calls h
    rw [he.2] at h
    obtain ⟨h1, h2⟩ := engine_reset hn he.1 h
    exact ⟨h1, fun m hm => by
      cases hm with
      | parser _ h =>
        rw [h2] at h
        subst h
        exact .shortParser i m⟩
  | _ => cases he

/-- C89: after a call that ends the current request, its parser points to no consumer, and the station points only to a parser mentioned in
the call. So the parser, and a consumer to which no other parser points, can be destroyed (`Careful.destroy`). -/
theorem C89_release (w w' : World) (op : Op) (n : Nat) (he : Ends w op) (hn : w.station.callbacks.configData = some n)
    (h : w.step op = .ok w') : (∀ m, w'.station.Has (.parser m) → Mentions op (.parser m)) ∧ ∀ o, ¬w'.Points (.parser n) o := by
  obtain ⟨r, h1, h2⟩ := ends_reset he hn
  rw [step_station h1] at h
  obtain ⟨⟨s, calls⟩, hr, h⟩ := bind_ok h
  obtain ⟨⟨rest, rfl⟩, h3⟩ := h2 s calls hr
  refine ⟨?_, ?_⟩
  · rw [(runCalls_log _ _ _ h).1]
    exact h3
  · intro o ho
    unfold runCalls at h
    dsimp only at h
    rw [List.foldlM_cons] at h
    obtain ⟨v, h4, h5⟩ := bind_ok h
    have := runCalls_fewer h5 _ _ ho
    obtain ⟨⟨p, cs⟩, h6, h7⟩ := bind_ok (show parserReset _ n = .ok v from h4)
    have := callConsumers_fewer h7 _ _ this
    cases this with
    | consumer _ c hc =>
      simp only [setParser, ↓reduceIte] at hc
      exact (reset_has h6).1 c hc

/-- A call on no parser. -/
def Apart (r : Res (List Call)) : Prop := ∀ cs, r = .ok cs → ∀ c ∈ cs, ∀ m, c.target ≠ .parser m

theorem apart_txSend (s : Station) (f : CanFrame) : Apart (s.txSend f) := by
  intro cs h c hc m
  unfold Station.txSend at h
  split at h
  · cases h
  · cases h
    rw [List.mem_singleton] at hc
    rw [hc]
    intro h'; cases h'

theorem apart_nil : Apart (.ok []) := by
  intro cs h c hc; cases h; cases hc

theorem apart_allFunctions (s : Station) (n : Nat) : ∀ (f : CanFrame) (i : Byte), Apart (s.allFunctionsLoop f n i) := by
  induction n with
  | zero => intro f i; exact apart_nil
  | succ n ih =>
    intro f i cs h
    obtain ⟨t, h1, h⟩ := bind_ok h
    obtain ⟨ts, h2, h⟩ := bind_ok h
    cases h
    intro c hc
    rcases List.mem_append.mp hc with hc | hc
    · exact apart_txSend s _ _ h1 c hc
    · exact ih _ _ _ h2 c hc

theorem apart_handle (s : Station) (b : Bool) (f : CanFrame) (hf : f.id.getCommand ≠ kConfigDataStream) : Apart (s.HandlePacket b f) := by
  have one : ∀ c : Call, (∀ m, c.target ≠ .parser m) → Apart (.ok [c]) := by
    intro c hc cs h x hx
    cases h
    rw [List.mem_singleton] at hx
    rw [hx]
    exact hc
  have err : ∀ e, Apart (.error e) := by intro e cs h; cases h
  have pr : ∀ d : Data, Apart (do let _ ← d.printed; .ok []) := by
    intro d cs h
    obtain ⟨_, -, h⟩ := bind_ok h
    exact apart_nil cs h
  unfold Station.HandlePacket
  dsimp only
  rw [if_neg hf]
  unfold Station.HandleSystemCommand Station.HandleAccessoryPacket Station.HandleLocoDirection Station.HandleLocoSpeed Station.HandleLocoFunction
  dsimp only
  repeat' split
  all_goals first
    | exact apart_nil
    | exact err _
    | exact pr _
    | exact one _ (by intro m h; cases h)

/-- The other calls do not use the parser of the current request. -/
theorem apart_part {w : World} {op : Op} (he : ¬Ends w op) (ha : ¬Asks w op) {s : Station} {calls : List Call}
    (h : w.stationDoes op = some (.ok (s, calls))) : ∀ c ∈ calls, ∀ m, c.target ≠ .parser m := by
  have keep : ∀ {r : Res (List Call)}, Apart r → some (r.map (w.station, ·)) = some (.ok (s, calls)) → ∀ c ∈ calls, ∀ m, c.target ≠ .parser m := by
    intro r hr he
    cases r with
    | error e => cases he
    | ok cs => cases he; exact hr _ rfl
  cases op with
  | begin_ u cbs => exact (he trivial).elim
  | handle f => exact keep (apart_handle _ _ _ ha) h
  | finish => exact (he trivial).elim
  | abort => exact (he trivial).elim
  | notifyReceived => exact (he trivial).elim
  | requestEngine e p =>
    simp only [stationDoes, Station.RequestEngine, show (w.engines e).info.isNameKnown = false by simpa [Asks] using ha] at h
    cases h
    intro c hc; cases hc
  | requestShortInfo i p =>
    simp only [stationDoes, Station.RequestEngine, show i.isNameKnown = false by simpa [Asks] using ha] at h
    cases h
    intro c hc; cases hc
  | requestEngineList off p => exact (he trivial).elim
  | requestDirection e => exact keep (apart_txSend _ _) h
  | sendDirection e d =>
    refine keep ?_ h
    unfold Station.SendEngineDirection
    split
    · exact apart_txSend _ _
    · exact apart_nil
  | requestVelocity e => exact keep (apart_txSend _ _) h
  | sendVelocity e v => exact keep (apart_txSend _ _) h
  | requestFunction e f => exact keep (apart_txSend _ _) h
  | requestAllFunctions e => exact keep (apart_allFunctions _ _ _ _) h
  | sendFunction e f v => exact keep (apart_txSend _ _) h
  | sendEmergencyStop e => exact keep (apart_txSend _ _) h
  | sendStop => exact keep (apart_txSend _ _) h
  | sendGo => exact keep (apart_txSend _ _) h
  | sendAccessory a p d pw => exact keep (apart_txSend _ _) h
  | sendPacket f => exact keep (apart_txSend _ _) h
  | _ => cases h

theorem opUses_apart {w : World} {op : Op} (ha : ¬Asks w op) {o : Obj} (h : o ∈ w.opUses op) : Mentions op o := by
  cases op with
  | handle f =>
    simp only [Asks] at ha
    simp only [opUses] at h
    rw [if_neg ha] at h
    cases h
  | requestEngine e p =>
    simp only [Asks] at ha
    simp only [opUses] at h
    rw [if_neg ha] at h
    rw [List.mem_singleton] at h
    rw [h]
    exact .requestEngine e p
  | requestShortInfo i p =>
    simp only [Asks] at ha
    simp only [opUses] at h
    rw [if_neg ha] at h
    cases h
  | parserStart n c => rw [List.mem_singleton.mp h]; exact .parserStart n c
  | parserStartStream n => rw [List.mem_singleton.mp h]; exact .parserStartStream n
  | parserAdd n d => rw [List.mem_singleton.mp h]; exact .parserAdd n d
  | parserReset n => rw [List.mem_singleton.mp h]; exact .parserReset n
  | setEngine c e => rw [List.mem_singleton.mp h]; exact .setEngine c e
  | setEndCallback c e => rw [List.mem_singleton.mp h]; exact .setEnd c e
  | setStreamOffset c e => rw [List.mem_singleton.mp h]; exact .setOffset c e
  | clearTable c => rw [List.mem_singleton.mp h]; exact .clearTable c
  | resetList c => rw [List.mem_singleton.mp h]; exact .resetList c
  | setName e _ => rw [List.mem_singleton.mp h]; exact .setName e _
  | assignEngine e _ => rw [List.mem_singleton.mp h]; exact .assignEngine e _
  | _ => cases h

theorem reset_dead {live : Obj → Bool} (w : World) {n : Nat} (hd : live (.parser n) = false) (rest : List Call) :
    w.runCallsL live (.cfgReset n :: rest) = .error (.dangling (.parser n)) := by
  have : w.runCallL live (.cfgReset n) = .error (.dangling (.parser n)) := by
    unfold runCallL
    dsimp only
    unfold parserResetL Out.check
    rw [hd]
    rfl
  unfold runCallsL
  rw [List.foldlM_cons, this]
  rfl

/-- C89: a parser that is destroyed before its request is ended is used again by every call that ends the request, and by every packet of a
stream and every request for a known engine, also if the stream was received long ago. (If the call also goes wrong without this, either
may come first.) -/
theorem C89_parser_gone (live : Obj → Bool) (w : World) (op : Op) (n : Nat) (hn : w.station.callbacks.configData = some n)
    (hd : live (.parser n) = false) (hop : Ends w op ∨ Asks w op) (hm : ∀ o, Mentions op o → live o = true) :
    w.stepL live op = .error (.dangling (.parser n)) ∨ ∃ f, w.step op = .error f ∧ w.stepL live op = .error (.fault f) := by
  have asks : w.asksParser = [.parser n] := by unfold asksParser; rw [hn]; rfl
  by_cases ha : Asks w op
  · left
    have hc : Out.check live (w.opUses op) = .error (.dangling (.parser n)) := by
      cases op with
      | handle f => simp only [Asks] at ha; simp only [opUses]; rw [if_pos ha, asks]; unfold Out.check; rw [hd]; rfl
      | requestEngine e p =>
        simp only [Asks] at ha
        simp only [opUses]
        rw [if_pos ha, asks]
        unfold Out.check
        rw [hm _ (.requestEngine e p)]
        unfold Out.check
        rw [hd]
        rfl
      | requestShortInfo i p => simp only [Asks] at ha; simp only [opUses]; rw [if_pos ha, asks]; unfold Out.check; rw [hd]; rfl
      | _ => cases ha
    unfold stepL
    rw [hc]
    rfl
  · have he : Ends w op := hop.resolve_right ha
    obtain ⟨r, h1, h2⟩ := ends_reset he hn
    have hu : Out.check live (w.opUses op) = .ok () := check_ok fun o ho => hm o (opUses_apart ha ho)
    cases r with
    | error f =>
      right
      refine ⟨f, by rw [step_station h1]; rfl, ?_⟩
      unfold stepL
      rw [hu, h1]
      rfl
    | ok r =>
      left
      obtain ⟨s, calls⟩ := r
      obtain ⟨⟨rest, rfl⟩, -⟩ := h2 s calls rfl
      unfold stepL
      rw [hu, h1]
      change runCallsL live { w with station := s } (.cfgReset n :: rest) = _
      rw [reset_dead _ hd]

/-- C89: all other calls do not use it. -/
theorem C89_parser_unused (live : Obj → Bool) (w : World) (op : Op) (he : ¬Ends w op) (ha : ¬Asks w op)
    (hs : ∀ o, w.station.Has o → live o = true ∨ ∃ n, o = .parser n) (hp : ∀ o o', live o = true → w.Points o o' → live o' = true)
    (hm : ∀ o, Mentions op o → live o = true) : w.stepL live op = Out.lift (w.step op) := by
  unfold stepL
  rw [check_ok fun o ho => hm o (opUses_apart ha ho)]
  cases h : w.stationDoes op with
  | some r =>
    rw [step_station h]
    cases r with
    | error e => rfl
    | ok r =>
      obtain ⟨s, calls⟩ := r
      refine runCalls_agree (w := { w with station := s }) (C := fun o => live o = true) (fun _ h => h)
        (Closed.fewer (w := w) hp (points_congr (fun _ _ h => h) rfl)) ?_
      intro c hc
      rcases (stationDoes_has h).1 c hc with h' | h'
      · rcases hs _ h' with h' | ⟨m, h'⟩
        · exact h'
        · exact (apart_part he ha h c hc m h').elim
      · exact hm _ h'
  | none =>
    cases op with
    | parserAdd n d => exact parserAdd_agree (C := fun o => live o = true) (fun _ h => h) hp (hm _ (.parserAdd n d)) d
    | parserReset n => exact parserReset_agree (C := fun o => live o = true) (fun _ h => h) hp (hm _ (.parserReset n))
    | _ => first | rfl | cases h

theorem check_two {live : Obj → Bool} {o : Obj} {os : List Obj} (h : live o = false) : Out.check live (o :: os) = .error (.dangling o) := by
  unfold Out.check
  rw [h]
  rfl

/-- C89: a consumer that is destroyed while its stream is being waited for or received is told of the abort when the request ends. -/
theorem C89_consumer_gone (live : Obj → Bool) (w : World) (op : Op) (n c : Nat) (hn : w.station.callbacks.configData = some n)
    (hp : (w.parsers n).isProcessing = true) (hc : (w.parsers n).consumer = some c) (hl : live (.parser n) = true)
    (hd : live (.consumer c) = false) (he : Ends w op) (hm : ∀ o, Mentions op o → live o = true) :
    w.stepL live op = .error (.dangling (.consumer c)) ∨ ∃ f, w.stepL live op = .error (.fault f) := by
  have hproc : w.processing = true := by unfold processing; rw [hn]; exact hp
  have ha : ¬Asks w op := by
    intro ha
    cases op with
    | handle f => exact he
    | requestEngine e p => have := he.2; rw [hproc] at this; cases this
    | requestShortInfo e p => have := he.2; rw [hproc] at this; cases this
    | _ => exact ha
  obtain ⟨r, h1, h2⟩ := ends_reset he hn
  have hu : Out.check live (w.opUses op) = .ok () := check_ok fun o ho => hm o (opUses_apart ha ho)
  cases r with
  | error f =>
    refine Or.inr ⟨f, ?_⟩
    unfold stepL
    rw [hu, h1]
    rfl
  | ok r =>
    obtain ⟨s, calls⟩ := r
    obtain ⟨⟨rest, rfl⟩, -⟩ := h2 s calls rfl
    have hs : (w.parsers n).state = .WAITING_FIRST_PACKET ∨ (w.parsers n).state = .WAITING_DATA_PACKET := by
      unfold StreamParser.isProcessing at hp
      cases hst : (w.parsers n).state with
      | IDLE => rw [hst] at hp; cases hp
      | WAITING_FIRST_PACKET => exact Or.inl rfl
      | WAITING_DATA_PACKET => exact Or.inr rfl
      | STREAM_DONE => rw [hst] at hp; cases hp
    have hnot : (w.parsers n).resetNotify = [⟨c, .aborted⟩] := by
      unfold StreamParser.resetNotify StreamParser.notify
      rw [if_pos hs, hc]
    cases hr : (w.parsers n).resetClear with
    | error f =>
      refine Or.inr ⟨f, ?_⟩
      unfold stepL
      rw [hu, h1]
      change runCallsL live { w with station := s } (.cfgReset n :: rest) = _
      have : runCallL live { w with station := s } (.cfgReset n) = .error (.fault f) := by
        change parserResetL live { w with station := s } n = _
        unfold parserResetL
        rw [check_ok (by intro o ho; rw [List.mem_singleton.mp ho]; exact hl)]
        change (Out.lift (w.parsers n).reset >>= _) = _
        unfold StreamParser.reset
        rw [hr]
        rfl
      unfold runCallsL
      rw [List.foldlM_cons, this]
      rfl
    | ok q =>
      left
      unfold stepL
      rw [hu, h1]
      change runCallsL live { w with station := s } (.cfgReset n :: rest) = _
      have : runCallL live { w with station := s } (.cfgReset n) = .error (.dangling (.consumer c)) := by
        change parserResetL live { w with station := s } n = _
        unfold parserResetL
        rw [check_ok (by intro o ho; rw [List.mem_singleton.mp ho]; exact hl)]
        change (Out.lift (w.parsers n).reset >>= _) = _
        unfold StreamParser.reset
        rw [hr, hnot]
        change callConsumersL live _ [⟨c, .aborted⟩] = _
        unfold callConsumersL
        rw [List.foldlM_cons]
        unfold callConsumerL consumerUses
        rw [check_two hd]
        rfl
      unfold runCallsL
      rw [List.foldlM_cons, this]
      rfl

/-! ## Who is told something exists -/

theorem OnlyLiving.refl (live : Obj → Bool) (w : World) : OnlyLiving live w w :=
  ⟨⟨[], by simp, by intro x hx; cases hx⟩, fun _ h => (h rfl).elim, fun _ h => (h rfl).elim, fun _ h => (h rfl).elim⟩

theorem OnlyLiving.trans {live : Obj → Bool} {a b c : World} (h : OnlyLiving live a b) (k : OnlyLiving live b c) : OnlyLiving live a c := by
  obtain ⟨⟨x, hx, hx'⟩, h1, h2, h3⟩ := h
  obtain ⟨⟨y, hy, hy'⟩, k1, k2, k3⟩ := k
  refine ⟨⟨x ++ y, by rw [hy, hx, List.append_assoc], fun e he => (List.mem_append.mp he).elim (hx' e) (hy' e)⟩, ?_, ?_, ?_⟩
  · intro n hn
    by_cases h : b.parsers n = a.parsers n
    · exact k1 n (by rw [h]; exact hn)
    · exact h1 n h
  · intro n hn
    by_cases h : b.consumers n = a.consumers n
    · exact k2 n (by rw [h]; exact hn)
    · exact h2 n h
  · intro n hn
    by_cases h : b.engines n = a.engines n
    · exact k3 n (by rw [h]; exact hn)
    · exact h3 n h

theorem lift_ok {α : Type} {r : Res α} {a : α} (h : Out.lift r = .ok a) : r = .ok a := by
  cases r with
  | error e => cases h
  | ok b => cases h; rfl

theorem out_bind {α β : Type} {x : Out α} {f : α → Out β} {b : β} (h : (x >>= f) = .ok b) : ∃ a, x = .ok a ∧ f a = .ok b := by
  cases x with
  | error e => cases h
  | ok a => exact ⟨a, rfl, h⟩

theorem living_endLog {σ : Type} {live : Obj → Bool} {p : Ptr} {cb : Option Nat} (hp : p.read = .ok cb)
    (hl : ∀ o ∈ p.obj?.toList.map Obj.endCallback, live o = true) {c : Nat} (hc : live (.consumer c) = true) (f : σ → Seen) (b : Bool) (x : σ) :
    ∀ e ∈ endLog c f (endCalls cb b x), TellsLiving live e := by
  intro e he
  cases p with
  | uninit => cases hp
  | null => cases hp; cases he
  | obj n =>
    cases hp
    rw [show endLog c f (endCalls (some n) b x) = [.streamEnd n c b (f x)] from rfl, List.mem_singleton] at he
    subst he
    exact ⟨hl _ (List.mem_singleton.mpr rfl), hc⟩

theorem callConsumer_living {live : Obj → Bool} {w w' : World} {c : ConsumerCall} (h : w.callConsumerL live c = .ok w') :
    w.callConsumer c = .ok w' ∧ OnlyLiving live w w' := by
  obtain ⟨_, h1, h2⟩ := out_bind h
  have hu := check_inv h1
  have h2 := lift_ok h2
  refine ⟨h2, ?_⟩
  have hc : live (.consumer c.consumer) = true := hu _ (by unfold consumerUses; exact List.mem_cons_self ..)
  have hin : ∀ o ∈ (w.consumerUses c).tail, live o = true := fun o ho => hu o (List.mem_of_mem_tail ho)
  rcases callConsumer_cases h2 with ⟨l, s, k, v, es, g1, g2, g3, rfl⟩ | ⟨l, es, ends, g1, g2, g3, rfl⟩ | ⟨l, ends, g1, g2, g3, rfl⟩ |
    ⟨l, s, k, v, l', g1, g2, g3, rfl⟩ | ⟨l, l', ends, g1, g2, g3, rfl⟩ | ⟨l, l', ends, g1, g2, g3, rfl⟩ | ⟨g1, rfl⟩
  all_goals simp only [consumerUses, List.tail_cons, g1] at hin
  all_goals try simp only [g2] at hin
  · refine ⟨⟨[.consumer c], rfl, by intro x hx; rw [List.mem_singleton.mp hx]; exact hc⟩, fun _ h => (h rfl).elim, fun _ h => (h rfl).elim, ?_⟩
    intro n hn
    obtain ⟨p, g4, g3⟩ := bind_ok g3
    cases hp : l.currentEngine with
    | uninit => rw [hp] at g4; cases g4
    | null => rw [hp] at g4; cases g4; cases g3; exact (hn rfl).elim
    | obj m =>
      rw [hp] at g4
      cases g4
      obtain ⟨e, -, g3⟩ := bind_ok g3
      cases g3
      have hnm : n = m := by
        by_cases h : n = m
        · exact h
        · exact (hn (by simp [Engines.set, h])).elim
      subst hnm
      exact hin _ (by rw [hp]; exact List.mem_singleton.mpr rfl)
  · obtain ⟨p, g4, g3⟩ := bind_ok g3
    cases hp : l.currentEngine with
    | uninit => rw [hp] at g4; cases g4
    | null =>
      rw [hp] at g4; cases g4; cases g3
      refine ⟨⟨[.consumer c], by simp [logAll, endLog], by intro x hx; rw [List.mem_singleton.mp hx]; exact hc⟩, fun _ h => (h rfl).elim, fun _ h => (h rfl).elim,
        fun _ h => (h rfl).elim⟩
    | obj m =>
      rw [hp] at g4 hin
      cases g4
      obtain ⟨_, -, g3⟩ := bind_ok g3
      obtain ⟨cb, g5, g3⟩ := bind_ok g3
      cases g3
      refine ⟨⟨[.consumer c] ++ _, by rw [← List.append_assoc]; rfl, ?_⟩, fun _ h => (h rfl).elim, fun _ h => (h rfl).elim, ?_⟩
      · intro x hx
        rcases List.mem_append.mp hx with hx | hx
        · rw [List.mem_singleton.mp hx]; exact hc
        · exact living_endLog g5 (fun o ho => hin o (List.mem_cons_of_mem _ ho)) hc _ _ _ x hx
      · intro n hn
        have hnm : n = m := by
          by_cases h : n = m
          · exact h
          · exact (hn (by simp [Engines.set, h, logAll])).elim
        subst hnm
        exact hin _ (List.mem_cons_self ..)
  · obtain ⟨cb, g5, g3⟩ := bind_ok g3
    cases g3
    refine ⟨⟨[.consumer c] ++ _, by rw [← List.append_assoc]; rfl, ?_⟩, fun _ h => (h rfl).elim, fun _ h => (h rfl).elim, fun _ h => (h rfl).elim⟩
    intro x hx
    rcases List.mem_append.mp hx with hx | hx
    · rw [List.mem_singleton.mp hx]; exact hc
    · exact living_endLog g5 hin hc _ _ _ x hx
  · refine ⟨⟨[.consumer c], rfl, by intro x hx; rw [List.mem_singleton.mp hx]; exact hc⟩, fun _ h => (h rfl).elim, ?_, fun _ h => (h rfl).elim⟩
    intro n hn
    by_cases h : n = c.consumer
    · rw [h]; exact hc
    · exact (hn (by simp [setConsumer, h, logAll])).elim
  · obtain ⟨cb, g5, g3⟩ := bind_ok g3
    cases g3
    refine ⟨⟨[.consumer c] ++ _, by rw [← List.append_assoc]; rfl, ?_⟩, fun _ h => (h rfl).elim, ?_, fun _ h => (h rfl).elim⟩
    · intro x hx
      rcases List.mem_append.mp hx with hx | hx
      · rw [List.mem_singleton.mp hx]; exact hc
      · exact living_endLog g5 hin hc _ _ _ x hx
    · intro n hn
      by_cases h : n = c.consumer
      · rw [h]; exact hc
      · exact (hn (by simp [setConsumer, h, logAll])).elim
  · obtain ⟨cb, g5, g3⟩ := bind_ok g3
    cases g3
    refine ⟨⟨[.consumer c] ++ _, by rw [← List.append_assoc]; rfl, ?_⟩, fun _ h => (h rfl).elim, ?_, fun _ h => (h rfl).elim⟩
    · intro x hx
      rcases List.mem_append.mp hx with hx | hx
      · rw [List.mem_singleton.mp hx]; exact hc
      · exact living_endLog g5 hin hc _ _ _ x hx
    · intro n hn
      by_cases h : n = c.consumer
      · rw [h]; exact hc
      · exact (hn (by simp [setConsumer, h, logAll])).elim
  · exact ⟨⟨[.consumer c], rfl, by intro x hx; rw [List.mem_singleton.mp hx]; exact hc⟩, fun _ h => (h rfl).elim, fun _ h => (h rfl).elim, fun _ h => (h rfl).elim⟩

/-- Loops with destroyed objects. -/
theorem foldlM_living {β : Type} {live : Obj → Bool} (f : World → β → Res World) (g : World → β → Out World)
    (hg : ∀ w w' c, g w c = .ok w' → f w c = .ok w' ∧ OnlyLiving live w w') (cs : List β) :
    ∀ w w', cs.foldlM g w = .ok w' → cs.foldlM f w = .ok w' ∧ OnlyLiving live w w' := by
  induction cs with
  | nil => intro w w' h; cases h; exact ⟨rfl, .refl live w⟩
  | cons c cs ih =>
    intro w w' h
    rw [List.foldlM_cons] at h
    obtain ⟨v, h1, h2⟩ := out_bind h
    obtain ⟨k1, k2⟩ := hg w v c h1
    obtain ⟨k3, k4⟩ := ih v w' h2
    exact ⟨by rw [List.foldlM_cons, k1]; exact k3, k2.trans k4⟩

theorem living_setParser {live : Obj → Bool} {w : World} {n : Nat} (h : live (.parser n) = true) (p : StreamParser) : OnlyLiving live w (w.setParser n p) := by
  refine ⟨⟨[], by simp [setParser], by intro x hx; cases hx⟩, ?_, fun _ h => (h rfl).elim, fun _ h => (h rfl).elim⟩
  intro m hm
  by_cases hmn : m = n
  · rw [hmn]; exact h
  · exact (hm (by simp [setParser, hmn])).elim

theorem callConsumers_living {live : Obj → Bool} {w w' : World} {cs : List ConsumerCall} (h : w.callConsumersL live cs = .ok w') :
    w.callConsumers cs = .ok w' ∧ OnlyLiving live w w' :=
  foldlM_living callConsumer (callConsumerL live) (fun _ _ _ h => callConsumer_living h) cs w w' h

theorem parserAdd_living {live : Obj → Bool} {w w' : World} {n : Nat} {d : Data} (h : w.parserAddL live n d = .ok w') :
    w.parserAdd n d = .ok w' ∧ OnlyLiving live w w' := by
  obtain ⟨_, h1, h⟩ := out_bind h
  obtain ⟨⟨p, cs⟩, h2, h⟩ := out_bind h
  obtain ⟨k1, k2⟩ := callConsumers_living h
  refine ⟨?_, (living_setParser (check_inv h1 _ (List.mem_singleton.mpr rfl)) p).trans k2⟩
  unfold parserAdd
  rw [lift_ok h2]
  exact k1

theorem parserReset_living {live : Obj → Bool} {w w' : World} {n : Nat} (h : w.parserResetL live n = .ok w') :
    w.parserReset n = .ok w' ∧ OnlyLiving live w w' := by
  obtain ⟨_, h1, h⟩ := out_bind h
  obtain ⟨⟨p, cs⟩, h2, h⟩ := out_bind h
  obtain ⟨k1, k2⟩ := callConsumers_living h
  refine ⟨?_, (living_setParser (check_inv h1 _ (List.mem_singleton.mpr rfl)) p).trans k2⟩
  unfold parserReset
  rw [lift_ok h2]
  exact k1

theorem runCall_living {live : Obj → Bool} {w w' : World} {c : Call} (h : w.runCallL live c = .ok w') :
    w.runCall c = .ok w' ∧ OnlyLiving live w w' := by
  have app : ∀ c : Call, (w.runCall c = .ok (w.logAll [.call c])) → (do Out.check live [c.target]; Out.lift (w.runCall c) : Out World) = .ok w' →
      w.runCall c = .ok w' ∧ OnlyLiving live w w' := by
    intro c hc h
    obtain ⟨_, h1, h⟩ := out_bind h
    have h := lift_ok h
    refine ⟨h, ?_⟩
    rw [hc] at h
    cases h
    exact ⟨⟨[.call c], rfl, by intro x hx; rw [List.mem_singleton.mp hx]; exact ⟨_, for_target c, check_inv h1 _ (List.mem_singleton.mpr rfl)⟩⟩, fun _ h => (h rfl).elim,
      fun _ h => (h rfl).elim, fun _ h => (h rfl).elim⟩
  cases c with
  | cfgAdd n d => exact parserAdd_living h
  | cfgReset n => exact parserReset_living h
  | cfgStart n =>
    obtain ⟨_, h1, h⟩ := out_bind h
    have h := lift_ok h
    refine ⟨h, ?_⟩
    cases h
    exact living_setParser (check_inv h1 _ (List.mem_singleton.mpr rfl)) _
  | _ => exact app _ rfl h

theorem runCalls_living {live : Obj → Bool} {w w' : World} {cs : List Call} (h : w.runCallsL live cs = .ok w') :
    w.runCalls cs = .ok w' ∧ OnlyLiving live w w' :=
  foldlM_living runCall (runCallL live) (fun _ _ _ h => runCall_living h) cs w w' h

theorem living_consumer {live : Obj → Bool} {w : World} {c : Nat} (h : live (.consumer c) = true) (x : Consumer) : OnlyLiving live w (w.setConsumer c x) := by
  refine ⟨⟨[], by simp [setConsumer], by intro x hx; cases hx⟩, fun _ h => (h rfl).elim, ?_, fun _ h => (h rfl).elim⟩
  intro m hm
  by_cases hmn : m = c
  · rw [hmn]; exact h
  · exact (hm (by simp [setConsumer, hmn])).elim

theorem living_engine {live : Obj → Bool} {w : World} {e : Nat} (h : live (.engine e) = true) (l : Locomotive) :
    OnlyLiving live w { w with engines := w.engines.set e l } := by
  refine ⟨⟨[], by simp, by intro x hx; cases hx⟩, fun _ h => (h rfl).elim, fun _ h => (h rfl).elim, ?_⟩
  intro m hm
  by_cases hmn : m = e
  · rw [hmn]; exact h
  · exact (hm (by simp [Engines.set, hmn])).elim

/-- C89: if a call uses no destroyed object, it does what it would do if nothing had been destroyed; all who are told something, and all
objects that change, exist. -/
theorem C89_living (live : Obj → Bool) (w w' : World) (op : Op) (h : w.stepL live op = .ok w') : w.step op = .ok w' ∧ OnlyLiving live w w' := by
  obtain ⟨_, h1, h⟩ := out_bind h
  have hu := check_inv h1
  cases hp : w.stationDoes op with
  | some r =>
    rw [hp] at h
    obtain ⟨⟨s, calls⟩, h2, h⟩ := out_bind h
    obtain ⟨k1, k2, k3, k4, k5⟩ := runCalls_living h
    refine ⟨?_, ⟨k2, k3, k4, k5⟩⟩
    rw [step_station hp, lift_ok h2]
    exact k1
  | none =>
    rw [hp] at h
    cases op with
    | parserAdd n d => exact parserAdd_living h
    | parserReset n => exact parserReset_living h
    | parserStart n c =>
      have h := lift_ok h
      refine ⟨h, ?_⟩
      cases h
      exact living_setParser (hu _ (List.mem_singleton.mpr rfl)) _
    | parserStartStream n =>
      have h := lift_ok h
      refine ⟨h, ?_⟩
      cases h
      exact living_setParser (hu _ (List.mem_singleton.mpr rfl)) _
    | setEngine c e =>
      have h := lift_ok h
      refine ⟨h, ?_⟩
      simp only [step] at h
      split at h
      · cases h; exact living_consumer (hu _ (List.mem_singleton.mpr rfl)) _
      · cases h; exact .refl live w
    | setEndCallback c e =>
      have h := lift_ok h
      refine ⟨h, ?_⟩
      simp only [step] at h
      split at h
      · cases h; exact living_consumer (hu _ (List.mem_singleton.mpr rfl)) _
      · cases h; exact living_consumer (hu _ (List.mem_singleton.mpr rfl)) _
      · cases h; exact .refl live w
    | setStreamOffset c e =>
      have h := lift_ok h
      refine ⟨h, ?_⟩
      simp only [step] at h
      split at h
      · cases h; exact living_consumer (hu _ (List.mem_singleton.mpr rfl)) _
      · cases h; exact .refl live w
    | clearTable c =>
      have h := lift_ok h
      refine ⟨h, ?_⟩
      simp only [step] at h
      split at h
      · cases h; exact living_consumer (hu _ (List.mem_singleton.mpr rfl)) _
      · cases h; exact .refl live w
    | resetList c =>
      have h := lift_ok h
      refine ⟨h, ?_⟩
      simp only [step] at h
      split at h
      · cases h; exact living_consumer (hu _ (List.mem_singleton.mpr rfl)) _
      · cases h; exact .refl live w
    | setName e name =>
      have h := lift_ok h
      refine ⟨h, ?_⟩
      obtain ⟨l, -, h⟩ := bind_ok h
      cases h
      exact living_engine (hu _ (List.mem_singleton.mpr rfl)) _
    | assignEngine e l =>
      have h := lift_ok h
      refine ⟨h, ?_⟩
      cases h
      exact living_engine (hu _ (List.mem_singleton.mpr rfl)) _
    | _ => cases hp

end World

end RR32
