import Verif.Proofs.Nested
import Verif.Props.History

/-! # Callbacks that call back: the functions of the station, if callbacks only record -/

set_option autoImplicit false

namespace RR32

theorem addressed_tx {s : Station} {P : CanFrame → Prop} {cs : List Call} (h : TxOk s P cs) : World.Addressed s cs :=
  fun cb f hm => (h cb f hm).1

theorem txSend_addressed (s : Station) (f : CanFrame) (cs : List Call) (h : s.txSend f = .ok cs) : World.Addressed s cs :=
  addressed_tx (P := fun _ => True) (txSend_ok h rfl trivial)

theorem allFunctionsLoop_addressed (s : Station) (n : Nat) (f : CanFrame) (i : Byte) (cs : List Call)
    (h : s.allFunctionsLoop f n i = .ok cs) : World.Addressed s cs := by
  induction n generalizing f i cs with
  | zero => cases h; intro _ _ h; cases h
  | succ n ih =>
    obtain ⟨t, h1, h⟩ := bind_ok h
    obtain ⟨ts, h2, h⟩ := bind_ok h
    cases h
    intro cb g hm
    rcases List.mem_append.mp hm with hm | hm
    · exact txSend_addressed s _ t h1 cb g hm
    · exact ih _ _ ts h2 cb g hm

theorem HandlePacket_addressed (s : Station) (b : Bool) (f : CanFrame) (cs : List Call) (h : s.HandlePacket b f = .ok cs) :
    World.Addressed s cs := fun cb g hm => ((C14_no_tx s b f cs h _ hm).1 cb g rfl).elim

/-- Requesting an engine while another request is registered and idle: the other one is ended first. -/
theorem RequestEngine_free (s : Station) (b : Bool) (i : ShortInfo) (p : Option Nat) (h1 : i.isNameKnown = true)
    (h2 : (s.callbacks.configData.isSome && b) = false) :
    s.RequestEngine b i p = (s.free.RequestEngine b i p).map (fun r => (r.1, s.callbacks.configData.toList.map Call.cfgReset ++ r.2)) := by
  unfold Station.RequestEngine
  rw [h1, h2]
  simp only [Bool.not_true, Bool.false_eq_true, if_false]
  unfold Station.AbortCurrentConfigRequest
  rw [finish_eq, finish_eq]
  unfold Station.free
  simp only [Option.isSome_none, Bool.false_and, Bool.false_eq_true, if_false, Option.toList, List.map_nil, List.nil_append]
  generalize strncpy _ kEngine _ = m1
  cases m1 with
  | error e => rfl
  | ok m1 =>
    cases htx : s.callbacks.tx with
    | none => simp only [bind, Except.bind, Station.txSend]; rfl
    | some cb =>
      simp only [bind, Except.bind, Station.txSend]
      cases strlen i.name with
      | error e => rfl
      | ok len =>
        simp only
        generalize strncpy _ i.name _ = m2
        cases m2 with
        | error e => rfl
        | ok m2 =>
          simp only
          split
          · simp only [Except.map]
          · simp only [Except.map]
            cases s.callbacks.configData <;> rfl

namespace World

section
variable {P : Program} {k : World → Op → Run World} (hP : P.Silent)
include hP

theorem send8_silent (w v : World) (id : Identifier) (bytes : List Byte) (cb : Nat) (h : w.station.callbacks.tx = some cb) :
    (send8 P k w id bytes).Returns v ↔ v = w.logAll [.call (.tx cb { id := id, data := { ({} : Data).withBytes bytes with dlc := 8#8 } })] := by
  unfold send8
  rw [runCallsN_silent hP _ _ _ (txSend_addressed _ _)]
  unfold stationCalls Station.txSend
  rw [h]
  exact ⟨fun h => by cases h; rfl, fun h => by rw [h]; rfl⟩

theorem send8_none (w v : World) (id : Identifier) (bytes : List Byte) (h : w.station.callbacks.tx = none) : ¬(send8 P k w id bytes).Returns v := by
  unfold send8
  rw [runCallsN_silent hP _ _ _ (txSend_addressed _ _)]
  unfold stationCalls Station.txSend
  rw [h]
  intro h; cases h


omit hP in
theorem callConsumer_aborted_engines (w v : World) (c : Nat) (h : w.callConsumer ⟨c, .aborted⟩ = .ok v) : v.engines = w.engines := by
  unfold callConsumer at h
  simp only at h
  split at h
  · next hc => cases hc
  · next hc => cases hc
  · obtain ⟨_, _, h⟩ := bind_ok h; cases h; rfl
  · next hc => cases hc
  · next hc => cases hc
  · obtain ⟨_, _, h⟩ := bind_ok h; cases h; rfl
  · cases h; rfl

omit hP in
theorem parserReset_engines (w v : World) (n : Nat) (h : w.parserReset n = .ok v) : v.engines = w.engines := by
  obtain ⟨u, p, h1, h2, rfl⟩ := (parserReset_eq w n v).mp h
  show u.engines = _
  unfold StreamParser.resetNotify StreamParser.notify at h1
  split at h1
  · cases hc : (w.parsers n).consumer with
    | none => rw [hc] at h1; cases h1; rfl
    | some c =>
      rw [hc] at h1
      unfold callConsumers at h1
      rw [List.foldlM_cons] at h1
      obtain ⟨x, h3, h4⟩ := bind_ok h1
      cases h4
      exact callConsumer_aborted_engines _ _ _ h3
  · cases h1; rfl

omit hP in
theorem finish_engines (w u : World) (h : w.step .finish = .ok u) : u.engines = w.engines := by
  cases hn : w.station.callbacks.configData with
  | none => rw [step_finish_none w hn] at h; cases h; rfl
  | some n =>
    rw [step_finish_some w n hn] at h
    cases hp : w.parserReset n with
    | error e => rw [hp] at h; cases h
    | ok x => rw [hp] at h; cases h; exact parserReset_engines w x n hp

omit hP in
theorem finish_free (w u : World) (h : w.step .finish = .ok u) : u.station = w.station.free := by
  cases hn : w.station.callbacks.configData with
  | none =>
    rw [step_finish_none w hn] at h
    cases h
    unfold Station.free
    rw [← hn]
  | some n =>
    rw [step_finish_some w n hn] at h
    cases hp : w.parserReset n with
    | error e => rw [hp] at h; cases h
    | ok u' => rw [hp] at h; cases h; rfl

theorem request_tail (u v : World) (b : Bool) (i : ShortInfo) (info : World → ShortInfo) (p : Option Nat) (hk : i.isNameKnown = true)
    (hi : ∀ x : World, x.engines = u.engines → info x = i) (hn : u.station.callbacks.configData = none) :
    (do
      let w := u.register p
      let w := match p with
        | none => w
        | some n => w.setParser n (w.parsers n).startStream
      let id := Identifier.mk' kRequestConfigData w.station.senderHash
      let mem ← Run.lift (strncpy ({} : Data).bytes kEngine Data.kDataBufferLength)
      let w ← send8 P k w id mem
      let engineNameLength ← Run.lift (strlen (info w).name)
      let mem ← Run.lift (strncpy ({} : Data).bytes (info w).name CanDataMaxLength)
      let w ← send8 P k w id mem
      let mem ← Run.lift (if engineNameLength > CanDataMaxLength then
          strncpy ({} : Data).bytes ((info w).name.drop CanDataMaxLength) CanDataMaxLength
        else .ok ({} : Data).bytes)
      send8 P k w id mem : Run World).Returns v ↔ u.stationUpdate (u.station.RequestEngine b i p) = .ok v := by
  unfold Station.RequestEngine Station.AbortCurrentConfigRequest
  rw [hk, hn, finish_eq, hn]
  simp only [Bool.not_true, Bool.false_eq_true, if_false, Option.isSome_none, Bool.false_and]
  obtain ⟨m1, hm1⟩ : ∃ m1, strncpy ({} : Data).bytes kEngine Data.kDataBufferLength = .ok m1 := ⟨_, rfl⟩
  have hm1' : strncpy ({ ({} : Data) with dlc := 8#8 } : Data).bytes kEngine Data.kDataBufferLength = .ok m1 := hm1
  have hr : ∀ d : Data, ({ d.reset with dlc := 8#8 } : Data) = { ({} : Data) with dlc := 8#8 } := fun d => rfl
  generalize hx0 : (match p with
        | none => u.register p
        | some n => (u.register p).setParser n ((u.register p).parsers n).startStream) = x0
  have hs0 : x0.station = { u.station with callbacks := { u.station.callbacks with configData := p } } := by
    rw [← hx0]; cases p <;> rfl
  have he0 : x0.engines = u.engines := by rw [← hx0]; cases p <;> rfl
  simp only [hm1, hm1', hr]
  rw [show (Run.lift (.ok m1) : Run (List Byte)) = pure m1 from rfl, pure_bind, returns_bind]
  cases htx : u.station.callbacks.tx with
  | none =>
    constructor
    · rintro ⟨y, h, -⟩
      exact absurd h (send8_none hP _ _ _ _ (by rw [hs0]; exact htx))
    · intro h
      simp only [Station.txSend, bind, Except.bind, stationUpdate] at h
      cases h
  | some cb =>
    have htx0 : x0.station.callbacks.tx = some cb := by rw [hs0]; exact htx
    simp only [send8_silent hP _ _ _ _ cb htx0, exists_eq_left]
    have hlog : ∀ (w : World) l, (w.logAll l).engines = w.engines ∧ (w.logAll l).station = w.station := fun _ _ => ⟨rfl, rfl⟩
    simp only [hi _ ((hlog _ _).1.trans he0)]
    cases hl : strlen i.name with
    | error e =>
      constructor
      · intro h; obtain ⟨_, h, -⟩ := returns_bind.mp h; cases h
      · intro h
        simp only [Station.txSend, bind, Except.bind, stationUpdate] at h
        cases h
    | ok len =>
      rw [show (Run.lift (.ok len) : Run Nat) = pure len from rfl, pure_bind]
      cases hm2 : strncpy ({} : Data).bytes i.name CanDataMaxLength with
      | error e =>
        have hm2' : strncpy ({ ({} : Data) with dlc := 8#8 } : Data).bytes i.name CanDataMaxLength = .error e := hm2
        constructor
        · intro h; obtain ⟨_, h, -⟩ := returns_bind.mp h; cases h
        · intro h
          simp only [Station.txSend, bind, Except.bind, stationUpdate, hm2'] at h
          cases h
      | ok m2 =>
        have hm2' : strncpy ({ ({} : Data) with dlc := 8#8 } : Data).bytes i.name CanDataMaxLength = .ok m2 := hm2
        rw [show (Run.lift (.ok m2) : Run (List Byte)) = pure m2 from rfl, pure_bind, returns_bind]
        generalize hx1 : x0.logAll _ = x1
        have hs1 : x1.station = x0.station := by rw [← hx1]; rfl
        have he1 : x1.engines = u.engines := by rw [← hx1]; exact he0
        simp only [send8_silent hP x1 _ _ _ cb (by rw [hs1]; exact htx0), exists_eq_left, hi _ ((hlog _ _).1.trans he1)]
        generalize hx2 : x1.logAll _ = x2
        have hs2 : x2.station.callbacks.tx = some cb := by rw [← hx2]; show x1.station.callbacks.tx = _; rw [hs1]; exact htx0
        rw [returns_bind]
        simp only [send8_silent hP x2 _ _ _ cb hs2, returns_lift]
        simp only [Station.txSend, bind, Except.bind, stationUpdate, hm2']
        have fin : ∀ d : Data, (({ u with station := { u.station with callbacks := { u.station.callbacks with configData := p } } } : World).runCalls
            (((([] ++ match p with | none => [] | some cb => [Call.cfgStart cb]) ++
              [Call.tx cb { id := Identifier.mk' kRequestConfigData u.station.senderHash, data := ({ ({} : Data) with dlc := 8#8 } : Data).withBytes m1 }]) ++
              [Call.tx cb { id := Identifier.mk' kRequestConfigData u.station.senderHash, data := ({ ({} : Data) with dlc := 8#8 } : Data).withBytes m2 }]) ++
              [Call.tx cb { id := Identifier.mk' kRequestConfigData u.station.senderHash, data := d }]) = .ok v) ↔
            v = x2.logAll [.call (.tx cb { id := Identifier.mk' kRequestConfigData x0.station.senderHash, data := d })] := by
          intro d
          rw [← hx2, ← hx1, ← hx0]
          cases p with
          | none => exact ⟨fun h => by cases h; rfl, fun h => by rw [h]; rfl⟩
          | some n => exact ⟨fun h => by cases h; rfl, fun h => by rw [h]; rfl⟩
        simp only [htx] at fin
        split
        · cases hm3 : strncpy ({} : Data).bytes (i.name.drop CanDataMaxLength) CanDataMaxLength with
          | error e =>
            have hm3' : strncpy ({ ({} : Data) with dlc := 8#8 } : Data).bytes (i.name.drop CanDataMaxLength) CanDataMaxLength = .error e := hm3
            simp only [hm3']
            constructor
            · rintro ⟨_, h, -⟩; cases h
            · intro h; cases h
          | ok m3 =>
            have hm3' : strncpy ({ ({} : Data) with dlc := 8#8 } : Data).bytes (i.name.drop CanDataMaxLength) CanDataMaxLength = .ok m3 := hm3
            simp only [hm3']
            refine Iff.trans ?_ (fin _).symm
            constructor
            · rintro ⟨_, h, h2⟩; cases h; exact h2
            · intro h; exact ⟨_, rfl, h⟩
        · refine Iff.trans ?_ (fin _).symm
          constructor
          · rintro ⟨_, h, h2⟩; cases h; exact h2
          · intro h; exact ⟨_, rfl, h⟩

theorem requestEngineN_silent (w v : World) (info : World → ShortInfo) (p : Option Nat)
    (hi : ∀ u : World, u.engines = w.engines → info u = info w) :
    (requestEngineN P k w info p).Returns v ↔ w.stationUpdate (w.station.RequestEngine w.processing (info w) p) = .ok v := by
  unfold requestEngineN
  by_cases hk : (info w).isNameKnown = true
  · rw [hk]
    by_cases hb : (w.station.callbacks.configData.isSome && w.processing) = true
    · rw [if_neg (by simp), if_pos hb]
      unfold Station.RequestEngine
      rw [hk, hb]
      exact returns_pure.trans ⟨fun h => by rw [← h]; rfl, fun h => by cases h; rfl⟩
    · rw [if_neg (by simp), if_neg hb, RequestEngine_free _ _ _ _ hk (by simpa using hb)]
      refine Iff.trans ?_ (stationUpdate_free w v _).symm
      rw [returns_bind]
      refine exists_congr (fun u => ?_)
      rw [finishN_silent hP]
      refine and_congr_right (fun hu => ?_)
      rw [← finish_free w u hu]
      refine request_tail hP u v _ (info w) info p hk (fun x hx => hi x (hx.trans (finish_engines w u hu))) ?_
      rw [finish_free w u hu]
      rfl
  · have hk : (info w).isNameKnown = false := by simpa using hk
    rw [hk, if_pos (by rfl)]
    unfold Station.RequestEngine
    rw [hk]
    exact returns_pure.trans ⟨fun h => by rw [← h]; rfl, fun h => by cases h; rfl⟩

/-- One call, if callbacks only record. -/
theorem stepN_silent (w v : World) (op : Op) : (stepN P k w op).Returns v ↔ w.step op = .ok v := by
  cases op with
  | begin_ uuid cbs =>
    show (finishN P k w >>= fun w => Run.lift (w.step (.begin_ uuid cbs))).Returns v ↔ w.stationUpdate (.ok (w.station.begin_ uuid cbs)) = .ok v
    rw [returns_bind, begin_free]
    refine Iff.trans ?_ (stationUpdate_free w v (.ok (w.station.free.begin_ uuid cbs))).symm
    refine exists_congr (fun u => ?_)
    rw [finishN_silent hP, returns_lift]
    refine and_congr_right (fun hu => ?_)
    show u.stationUpdate (.ok (u.station.begin_ uuid cbs)) = _ ↔ _
    rw [finish_free w u hu]
  | requestEngineList off p =>
    show (finishN P k w >>= fun w => Run.lift (w.station.RequestEngineList off p) >>= fun x =>
      runCallsN P k { w with station := x.1 } (.ok x.2)).Returns v ↔ w.stationUpdate (w.station.RequestEngineList off p) = .ok v
    rw [returns_bind, RequestEngineList_free]
    refine Iff.trans ?_ (stationUpdate_free w v (w.station.free.RequestEngineList off p)).symm
    refine exists_congr (fun u => ?_)
    rw [finishN_silent hP]
    refine and_congr_right (fun hu => ?_)
    rw [finish_free w u hu, returns_bind]
    cases hr : w.station.free.RequestEngineList off p with
    | error e =>
      constructor
      · rintro ⟨_, h, -⟩; cases h
      · intro h; cases h
    | ok x =>
      have ha : Addressed x.1 x.2 := by
        obtain ⟨⟨-, h1⟩, h2⟩ := requestEngineList_tx _ x.1 off p x.2 hr
        intro cb f hm
        rw [h1]
        exact (h2 cb f hm).1
      constructor
      · rintro ⟨y, h1, h2⟩
        cases h1
        exact (runCallsN_silent hP _ _ _ (fun cs h => by cases h; exact ha)).mp h2
      · intro h
        exact ⟨x, rfl, (runCallsN_silent hP _ _ _ (fun cs h => by cases h; exact ha)).mpr h⟩
  | requestEngine e p => exact requestEngineN_silent hP w v (fun w => (w.engines e).info) p (fun u hu => by simp only [hu])
  | requestShortInfo i p => exact requestEngineN_silent hP w v (fun _ => i) p (fun u hu => rfl)
  | finish => exact finishN_silent hP w v
  | abort => exact finishN_silent hP w v
  | notifyReceived => exact finishN_silent hP w v
  | handle f => exact runCallsN_silent hP w v _ (HandlePacket_addressed _ _ _)
  | parserAdd n d => exact parserAddN_silent hP w v n d
  | parserReset n => exact parserResetN_silent hP w v n
  | requestDirection e => exact runCallsN_silent hP w v _ (txSend_addressed _ _)
  | sendDirection e d =>
    refine runCallsN_silent hP w v _ (fun cs h => ?_)
    unfold Station.SendEngineDirection at h
    split at h
    · exact txSend_addressed _ _ _ h
    · cases h; intro _ _ h; cases h
  | requestVelocity e => exact runCallsN_silent hP w v _ (txSend_addressed _ _)
  | sendVelocity e x => exact runCallsN_silent hP w v _ (txSend_addressed _ _)
  | requestFunction e f => exact runCallsN_silent hP w v _ (txSend_addressed _ _)
  | requestAllFunctions e => exact runCallsN_silent hP w v _ (allFunctionsLoop_addressed _ _ _ _)
  | sendFunction e f x => exact runCallsN_silent hP w v _ (txSend_addressed _ _)
  | sendEmergencyStop e => exact runCallsN_silent hP w v _ (txSend_addressed _ _)
  | sendStop => exact runCallsN_silent hP w v _ (txSend_addressed _ _)
  | sendGo => exact runCallsN_silent hP w v _ (txSend_addressed _ _)
  | sendAccessory a p d pw => exact runCallsN_silent hP w v _ (txSend_addressed _ _)
  | sendPacket f => exact runCallsN_silent hP w v _ (txSend_addressed _ _)
  | _ => exact returns_lift

end

end World

end RR32
