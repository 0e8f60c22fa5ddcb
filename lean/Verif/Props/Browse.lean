import Verif.Proofs.Master
import Verif.Proofs.NestedSafe
import Verif.Props.Locomotive

/-! # C81, C82: an application that goes through the engines of a master -/

set_option autoImplicit false

namespace RR32

open Spec

/-! ## The application -/

/-- The objects of the application: a stream parser, a list and its end callback, an engine consumer and its end callback, and the
transmit callback. -/
structure App where
  parser : Nat
  list : Nat
  listEnd : Nat
  loco : Nat
  locoEnd : Nat
  tx : Nat

/-- A state in which the objects are set up; nothing is said about requests or streams in progress. -/
structure Ready (a : App) (w : World) : Prop where
  sound : Sound w
  tidy : Tidy w
  tx : w.station.callbacks.tx = some a.tx
  pf : 32 ≤ w.pf.longBits
  list : ∃ l, w.consumers a.list = .list l ∧ l.streamEndCallback = .obj a.listEnd ∧ l.engineInfo.length = 2 ∧
    ∀ i ∈ l.engineInfo, i.name.length = 33
  loco : ∃ l, w.consumers a.loco = .loco l ∧ l.streamEndCallback = .obj a.locoEnd

/-- The calls for a page of the list. -/
def page (a : App) (o : Byte) : List Op :=
  [.abort, .clearTable a.list, .setStreamOffset a.list o, .parserStart a.parser (some a.list), .requestEngineList o (some a.parser)]

/-- The calls for an engine with a name. -/
def load (a : App) (e : Nat) (name : List Byte) : List Op :=
  [.abort, .setName e name, .setEngine a.loco (some e), .parserStart a.parser (some a.loco), .requestEngine e (some a.parser)]

/-! ## Lemmas -/

theorem listEntries_names (pf : Platform) (es : List Entry) (l d : LocoListConsumer) (h : listEntries pf l es = .ok d)
    (hl : ∀ i ∈ l.engineInfo, i.name.length = 33) : d.engineInfo.length = l.engineInfo.length ∧ ∀ i ∈ d.engineInfo, i.name.length = 33 := by
  induction es generalizing l with
  | nil => cases h; exact ⟨rfl, hl⟩
  | cons e es ih =>
    obtain ⟨m, h1, h2⟩ := bind_ok h
    suffices hm : m.engineInfo.length = l.engineInfo.length ∧ ∀ i ∈ m.engineInfo, i.name.length = 33 by
      obtain ⟨a, b⟩ := ih m h2 hm.2
      exact ⟨a.trans hm.1, b⟩
    unfold listEntry LocoListConsumer.consumeConfigData at h1
    obtain ⟨b1, -, h1⟩ := bind_ok h1
    split at h1
    · split at h1
      · cases h1; exact ⟨rfl, hl⟩
      · obtain ⟨_, -, h1⟩ := bind_ok h1
        obtain ⟨info, hi, h1⟩ := bind_ok h1
        cases h1
        refine ⟨List.length_set, fun i hi' => ?_⟩
        rcases List.mem_or_eq_of_mem_set hi' with hi' | rfl
        · exact hl i hi'
        · obtain ⟨m, g1, g2⟩ := bind_ok hi
          cases g2
          exact (strncpy_mild _ _ _ (by simp [ShortInfo.reset, ShortInfo.eraseName])).2 m g1 |>.trans
            (by simp [ShortInfo.reset, ShortInfo.eraseName, kEngineNameLength])
    · obtain ⟨b2, -, h1⟩ := bind_ok h1
      split at h1
      · obtain ⟨b3, -, h1⟩ := bind_ok h1
        split at h1
        · obtain ⟨v, -, h1⟩ := bind_ok h1
          cases h1; exact ⟨rfl, hl⟩
        · cases h1; exact ⟨rfl, hl⟩
      · obtain ⟨_, -, h1⟩ := bind_ok h1
        cases h1; exact ⟨rfl, hl⟩

theorem frames_allowed (fs : List CanFrame) (w : World) : AllAllowed w (fs.map .handle) := by
  induction fs generalizing w with
  | nil => trivial
  | cons f fs ih => exact ⟨trivial, fun v _ => ih v⟩

theorem frames_viaStation (fs : List CanFrame) : ∀ op ∈ fs.map Op.handle, op.viaStation = true := by
  intro op h
  obtain ⟨f, -, rfl⟩ := List.mem_map.mp h
  rfl

/-- A list that was aborted, or not. -/
theorem aborted_list {l : LocoListConsumer} {x : Consumer} (h : (Consumer.list l).AbortedFrom x) (cb : Nat)
    (h1 : l.streamEndCallback = .obj cb) (h2 : l.engineInfo.length = 2) (h3 : ∀ i ∈ l.engineInfo, i.name.length = 33) :
    ∃ m, x = .list m ∧ m.streamEndCallback = .obj cb ∧ m.engineInfo.length = 2 ∧ ∀ i ∈ m.engineInfo, i.name.length = 33 := by
  rcases h with rfl | ⟨k, hk, rfl⟩
  · exact ⟨l, rfl, h1, h2, h3⟩
  · cases hk
    refine ⟨_, rfl, h1, ?_, ?_⟩
    · simp [LocoListConsumer.reset, LocoListConsumer.clearTable, h2]
    · intro i hi
      simp only [LocoListConsumer.reset, LocoListConsumer.clearTable, List.mem_map] at hi
      obtain ⟨j, -, rfl⟩ := hi
      simp [ShortInfo.reset, ShortInfo.eraseName, kEngineNameLength]

theorem aborted_loco {l : LocoConsumer} {x : Consumer} (h : (Consumer.loco l).AbortedFrom x) : x = .loco l := by
  rcases h with rfl | ⟨k, hk, -⟩
  · rfl
  · cases hk

/-! ## C81 -/

/-- C81, one page: in whatever state the library is, the calls for a page send a request that the master reads as one for two names from
that position on, and the frames of the answer leave these names in the table, with the number of engines and the position; the end
callback is called with the finished list, engines are untouched, and the application can go on. -/
theorem C81_page (a : App) (db : List EngineRecord) (w : World) (hr : Ready a w) (o : Byte) :
    ∃ v, w.run (page a o) = .ok v ∧ asked (sentSince w v) = some (.names o.toNat 2) ∧
      ∀ first rest, Replies db (sentSince w v) first rest → ∃ u d, v.run ((first :: rest).map .handle) = .ok u ∧ Ready a u ∧
        u.consumers a.list = .list d ∧ Shows d (((db.map (·.name)).drop o.toNat).take 2) ∧
        d.numEnginesKnownByMaster = some (BitVec.ofNat 8 db.length) ∧ d.streamComplete = some true ∧ d.streamOffset = some o ∧
        u.engines = w.engines ∧ u.processing = false ∧ u.log.getLast? = some (.streamEnd a.listEnd a.list true (.list d)) := by
  obtain ⟨l0, hl0, hcb0, hlen0, hname0⟩ := hr.list
  obtain ⟨k0, hk0, hkcb0⟩ := hr.loco
  obtain ⟨v1, lg, s1, s2, s3, s4, s5, s6, s7, s8, s9, -⟩ := abort_ok w hr.sound hr.tidy
  have ha := s7 a.list
  rw [hl0] at ha
  obtain ⟨l1, hl1, hcb1, hlen1, -⟩ := aborted_list ha a.listEnd hcb0 hlen0 hname0
  have hk1 : v1.consumers a.loco = .loco k0 := by
    have := s7 a.loco
    rw [hk0] at this
    exact aborted_loco this
  have hne : a.loco ≠ a.list := by
    intro e
    rw [e, hl0] at hk0
    cases hk0
  -- the list is cleared and set up
  let l3 := (l1.clearTable).setStreamOffset o
  let w3 : World := v1.setConsumer a.list (.list l3)
  have hrun3 : w.run [.abort, .clearTable a.list, .setStreamOffset a.list o] = .ok w3 := by
    rw [World.run_cons, s1]
    have e1 : v1.step (.clearTable a.list) = .ok (v1.setConsumer a.list (.list l1.clearTable)) := by
      simp only [World.step, hl1]
    have e2 : (v1.setConsumer a.list (.list l1.clearTable)).step (.setStreamOffset a.list o) = .ok w3 := by
      simp only [World.step, World.setConsumer, if_true]
      show Except.ok _ = Except.ok _
      congr 1
      simp only [w3, l3, World.setConsumer]
      congr 1
      funext m
      split <;> rfl
    show (v1.run [.clearTable a.list, .setStreamOffset a.list o]) = _
    rw [World.run_cons, e1]
    show ((v1.setConsumer a.list (.list l1.clearTable)).run [.setStreamOffset a.list o]) = _
    rw [World.run_cons, e2]
    rfl
  have hinit : (w3.consumers a.list).Initialised := by
    simp only [w3, World.setConsumer, if_true]
    show l1.streamEndCallback ≠ .uninit
    rw [hcb1]
    intro h; cases h
  have hs3 : Sound w3 := by
    refine sound_consumers s2 rfl (setConsumer_init v1 a.list _ ?_)
    intro _
    show l1.streamEndCallback ≠ .uninit
    rw [hcb1]
    intro h; cases h
  have ht3 : Tidy w3 := s3
  have hnone : w3.station.callbacks.configData = none := by show v1.station.callbacks.configData = none; rw [s4]
  have htx : w3.station.callbacks.tx = some a.tx := by show v1.station.callbacks.tx = _; rw [s4]; exact hr.tx
  obtain ⟨fs, hrun, hasked⟩ := run_list w3 a.parser a.list a.tx htx hnone o
  have hlog : w3.log = w.log ++ lg := s8
  have hsent : sentSince w (w3.requested a.parser a.list a.tx fs) = fs := by
    unfold sentSince
    simp only [World.requested, hlog, List.append_assoc, List.drop_left]
    rw [framesOf_append, s9, framesOf_tx]
    rfl
  have hpage : w.run (page a o) = .ok (w3.requested a.parser a.list a.tx fs) := by
    show w.run ([.abort, .clearTable a.list, .setStreamOffset a.list o] ++
      [.parserStart a.parser (some a.list), .requestEngineList o (some a.parser)]) = _
    rw [World.run_append, hrun3]
    exact hrun
  refine ⟨_, hpage, by rw [hsent]; exact hasked, ?_⟩
  rintro first rest ⟨q, items, tail, hq, hw, hans⟩
  rw [hsent, hasked] at hq
  cases hq
  cases hans with
  | names _ _ known hknown _ hfile =>
    rw [← hknown, BitVec.ofNat_toNat, BitVec.setWidth_eq]
    have hfile := hfile.matched
    obtain ⟨p, hserved, hdone⟩ := served w3 hs3 a.parser a.list a.tx (ht3 a.parser (by rw [hnone]; intro h; cases h)) fs first rest items tail hw
    have hshow : Shows l3 [] := shows_clear l1 hlen1
    have hsafe : ∀ e ∈ entriesOf [] items, ListSafe e := fun x hx =>
      ⟨entriesOf_fits items [] (Nat.zero_le _) hw.fits x hx, (hfile.readable x hx).1, (hfile.readable x hx).2⟩
    have hpf : w3.pf = w.pf := s6
    obtain ⟨d, a1, a2, -, a4, a5, -⟩ := C50_sequence w3.pf l3 [] hshow (entriesOf [] items) hsafe
    obtain ⟨d', b1, b2⟩ := list_entries_count w3.pf (by rw [hpf]; have := hr.pf; omega) known (entriesOf [] items)
      l3 [] hshow hsafe hfile.count (Or.inr hfile.hasCount)
    rw [a1] at b1
    cases b1
    obtain ⟨c1, c2⟩ := listEntries_names w3.pf (entriesOf [] items) l3 d a1 (by
      intro i hi
      simp only [l3, LocoListConsumer.setStreamOffset, LocoListConsumer.clearTable, List.mem_map] at hi
      obtain ⟨j, -, rfl⟩ := hi
      simp [ShortInfo.reset, ShortInfo.eraseName, kEngineNameLength])
    have hent := World.list_entries ((w3.requested a.parser a.list a.tx fs).setParser a.parser p) a.list l3
      (by simp [World.requested, World.setParser, w3, World.setConsumer]) (entriesOf [] items)
    have hd : listEntries ((w3.requested a.parser a.list a.tx fs).setParser a.parser p).pf l3 (entriesOf [] items) = .ok d := a1
    rw [hd] at hent
    have hfin := World.list_complete { ((w3.requested a.parser a.list a.tx fs).setParser a.parser p).setConsumer a.list (.list d) with
      log := (w3.requested a.parser a.list a.tx fs).log ++ (calls a.list ((entriesOf [] items).map .entry)).map .consumer } a.list d
      (by simp [World.setConsumer]) a.listEnd (by rw [a5]; exact hcb1)
    rw [calls_append, World.callConsumers_append, hent] at hserved
    replace hserved := hserved.trans hfin
    generalize hu : World.mk _ _ _ _ _ _ = u at hserved
    have u1 : u.consumers = fun m => if m = a.list then .list { d with streamComplete := some true } else w3.consumers m := by
      rw [← hu]
      funext m
      simp only [World.setConsumer, World.setParser, World.requested]
      split <;> rfl
    have u2 : u.engines = w.engines := by
      rw [← hu]
      exact s5
    have u3 : u.station.callbacks.tx = some a.tx := by
      rw [← hu]
      exact htx
    have u4 : u.pf = w.pf := by
      rw [← hu]
      exact s6
    have u5 : u.log.getLast? = some (.streamEnd a.listEnd a.list true (.list { d with streamComplete := some true })) := by
      rw [← hu]
      simp
    have u6 : u.processing = false := by
      rw [← hu]
      simp [World.processing, World.requested, World.setParser, World.setConsumer, StreamParser.isProcessing, hdone]
    have htidy := tidy_history [.parserStart a.parser (some a.list), .requestEngineList o (some a.parser)] w3 _ ht3 hs3 ⟨hinit, fun _ _ => ⟨trivial, fun _ _ => trivial⟩⟩ (by
      intro op hop
      simp only [List.mem_cons, List.not_mem_nil, or_false] at hop
      rcases hop with rfl | rfl <;> rfl) hrun
    have htidy' := tidy_history _ _ _ htidy.1 htidy.2 (frames_allowed _ _) (frames_viaStation _) hserved
    refine ⟨u, { d with streamComplete := some true }, hserved, ?_, ?_, ?_, b2, rfl, a4, u2, u6, u5⟩
    · refine ⟨htidy'.2, htidy'.1, u3, by rw [u4]; exact hr.pf, ⟨{ d with streamComplete := some true }, by rw [u1]; simp, by
        rw [← hcb1]; exact a5, ?_, c2⟩, ⟨k0, ?_, hkcb0⟩⟩
      · refine c1.trans ?_
        simp [l3, LocoListConsumer.setStreamOffset, LocoListConsumer.clearTable, hlen1]
      · rw [u1]
        simp only [if_neg hne, w3, World.setConsumer, hk1]
    · rw [u1]; simp
    · rw [List.nil_append, hfile.names, List.take_take] at a2
      exact a2

/-! ## C82 -/

/-- The engine object holds what the master knows. -/
structure Mirrors (e : Locomotive) (r : EngineRecord) : Prop where
  name : text e.info.name = r.name
  uid : e.data.uid = r.uid
  address : e.data.address = ⟨r.address⟩
  protocol : cstr e.protocol = .ok r.protocol
  known : e.isFullDetailsKnown = true

/-- One engine: in whatever state the library is, the calls for an engine send a request that the master reads as one for that name. The
file of an engine that comes then, whichever engine it is, is stored beside the name. -/
theorem load_any (a : App) (w : World) (hr : Ready a w) (e : Nat) (m : List Byte) (hm : Readable 32 m) (hlen : (text m).length ≤ 16) :
    ∃ v, w.run (load a e m) = .ok v ∧ asked (sentSince w v) = some (.engine (text m)) ∧
      ∀ first rest items tail uid address protocol, WireStream first rest items tail →
        NamedEngineFile (entriesOf [] items) uid address protocol → ∃ u, v.run ((first :: rest).map .handle) = .ok u ∧ Ready a u ∧
        Mirrors (u.engines e) ⟨text m, uid, address, protocol⟩ ∧ (∀ x, x ≠ e → u.engines x = w.engines x) ∧
        (w.consumers a.list).AbortedFrom (u.consumers a.list) ∧ (w.processing = false → u.consumers a.list = w.consumers a.list) ∧
        u.processing = false ∧
        u.log.getLast? = some (.streamEnd a.locoEnd a.loco true (.engine (u.engines e))) := by
  obtain ⟨l0, hl0, hcb0, hlen0, hname0⟩ := hr.list
  obtain ⟨k0, hk0, hkcb0⟩ := hr.loco
  obtain ⟨v1, lg, s1, s2, s3, s4, s5, s6, s7, s8, s9, s10⟩ := abort_ok w hr.sound hr.tidy
  have hk1 : v1.consumers a.loco = .loco k0 := by
    have := s7 a.loco
    rw [hk0] at this
    exact aborted_loco this
  have hne : a.list ≠ a.loco := by
    intro h
    rw [h, hk0] at hl0
    cases hl0
  have hset : ∀ (es : Engines) (x : Locomotive), (es.set e x) e = x := by intro es x; simp [Engines.set]
  obtain ⟨g, g1, g2, -, g4, g5, -, -, -, -, -, -, g12⟩ := C54_setName_engine (w.engines e) m hm
  have g5' : text g.info.name = text m := by rw [g5, List.take_of_length_le (by omega)]
  -- the engine gets its name, and the consumer the engine
  let k3 : LocoConsumer := { k0 with currentEngine := .obj e }
  let w3 : World := { v1 with engines := w.engines.set e g, consumers := fun m => if m = a.loco then .loco k3 else v1.consumers m }
  have hrun3 : w.run [.abort, .setName e m, .setEngine a.loco (some e)] = .ok w3 := by
    rw [World.run_cons, s1]
    have e1 : v1.step (.setName e m) = .ok { v1 with engines := w.engines.set e g } := by
      simp only [World.step, s5, g1, bind, Except.bind]
    have e2 : ({ v1 with engines := w.engines.set e g } : World).step (.setEngine a.loco (some e)) = .ok w3 := by
      simp only [World.step, hk1]
      rfl
    show (v1.run [.setName e m, .setEngine a.loco (some e)]) = _
    rw [World.run_cons, e1]
    show (({ v1 with engines := w.engines.set e g } : World).run [.setEngine a.loco (some e)]) = _
    rw [World.run_cons, e2]
    rfl
  have hinit3 : (Consumer.loco k3).Initialised := ⟨(by intro h; cases h), (by show k0.streamEndCallback ≠ .uninit; rw [hkcb0]; intro h; cases h)⟩
  have hc3 : w3.consumers a.loco = .loco k3 := by simp [w3]
  have hs3 : Sound w3 := sound_consumers s2 rfl (setConsumer_init v1 a.loco _ (fun _ => hinit3))
  have ht3 : Tidy w3 := s3
  have he3 : w3.engines e = g := hset _ _
  have hnone : w3.station.callbacks.configData = none := by show v1.station.callbacks.configData = none; rw [s4]
  have htx : w3.station.callbacks.tx = some a.tx := by show v1.station.callbacks.tx = _; rw [s4]; exact hr.tx
  obtain ⟨fs, hrun, hasked⟩ := run_engine w3 a.parser a.loco a.tx e htx hnone (by rw [he3]; simp [ShortInfo.isNameKnown, g2]) (by rw [he3]; exact g4)
    (by rw [he3, g5']; exact hlen)
  rw [he3, g5'] at hasked
  have hlog : w3.log = w.log ++ lg := s8
  have hsent : sentSince w (w3.requested a.parser a.loco a.tx fs) = fs := by
    unfold sentSince
    simp only [World.requested, hlog, List.append_assoc, List.drop_left]
    rw [framesOf_append, s9, framesOf_tx]
    rfl
  have hload : w.run (load a e m) = .ok (w3.requested a.parser a.loco a.tx fs) := by
    show w.run ([.abort, .setName e m, .setEngine a.loco (some e)] ++
      [.parserStart a.parser (some a.loco), .requestEngine e (some a.parser)]) = _
    rw [World.run_append, hrun3]
    exact hrun
  refine ⟨_, hload, by rw [hsent]; exact hasked, ?_⟩
  intro first rest items tail uid address protocol hw hfile
  have hfile := hfile.matched
  obtain ⟨p, hserved, hdone⟩ := served w3 hs3 a.parser a.loco a.tx (ht3 a.parser (by rw [hnone]; intro h; cases h)) fs first rest items tail hw
  have hpf : w3.pf = w.pf := s6
  obtain ⟨k, a1, a2, a3, a4, a5, a6⟩ := engine_entries w3.pf (by rw [hpf]; exact hr.pf) uid address protocol hfile.short
    (entriesOf [] items) g g12 (fun x hx => ⟨entriesOf_fits items [] (Nat.zero_le _) hw.fits x hx, hfile.readable x hx⟩) hfile.uid hfile.address
    hfile.protocol
  have hk1' : text k.protocol = protocol := a6 (Or.inr hfile.hasProtocol)
  have hk2 : Terminated k.protocol := by
    rw [terminated_iff, hk1', a3]
    have := hfile.short
    omega
  have hk3 : Terminated k.info.name := by rw [a2.1]; exact g4
  have hent := World.loco_entries ((w3.requested a.parser a.loco a.tx fs).setParser a.parser p) a.loco k3 hc3 e rfl (entriesOf [] items)
  have ha : consumeEntries ((w3.requested a.parser a.loco a.tx fs).setParser a.parser p).pf
      (((w3.requested a.parser a.loco a.tx fs).setParser a.parser p).engines e) (entriesOf [] items) = .ok k := by
    show consumeEntries w3.pf (w3.engines e) _ = _
    rw [he3, a1]
  rw [ha] at hent
  have hfin := World.loco_complete { (w3.requested a.parser a.loco a.tx fs).setParser a.parser p with
    engines := w3.engines.set e k
    log := (w3.requested a.parser a.loco a.tx fs).log ++ (calls a.loco ((entriesOf [] items).map .entry)).map .consumer } a.loco k3 hc3 e
    a.locoEnd rfl hkcb0 (by simp only [hset]; exact hk3) (by simp only [hset]; exact hk2)
  rw [calls_append, World.callConsumers_append, hent] at hserved
  replace hserved := hserved.trans hfin
  generalize hu : World.mk _ _ _ _ _ _ = u at hserved
  have u1 : u.consumers = w3.consumers := by rw [← hu]; rfl
  have u2 : u.engines e = k.setAvailability .FULL_DETAILS := by rw [← hu]; simp only [hset]
  have u2' : ∀ x, x ≠ e → u.engines x = w.engines x := by
    intro x hx
    rw [← hu]
    simp [Engines.set, hx, w3]
  have u3 : u.station.callbacks.tx = some a.tx := by rw [← hu]; exact htx
  have u4 : u.pf = w.pf := by rw [← hu]; exact s6
  have u5 : u.log.getLast? = some (.streamEnd a.locoEnd a.loco true (.engine (u.engines e))) := by
    rw [u2, ← hu]
    simp [hset]
  have u6 : u.processing = false := by
    rw [← hu]
    simp [World.processing, World.requested, World.setParser, StreamParser.isProcessing, hdone]
  have htidy := tidy_history [.parserStart a.parser (some a.loco), .requestEngine e (some a.parser)] w3 _ ht3 hs3
    ⟨by show (w3.consumers a.loco).Initialised; rw [hc3]; exact hinit3, fun _ _ => ⟨trivial, fun _ _ => trivial⟩⟩ (by
    intro op hop
    simp only [List.mem_cons, List.not_mem_nil, or_false] at hop
    rcases hop with rfl | rfl <;> rfl) hrun
  have htidy' := tidy_history _ _ _ htidy.1 htidy.2 (frames_allowed _ _) (frames_viaStation _) hserved
  have hulist : u.consumers a.list = v1.consumers a.list := by
    rw [u1]
    simp only [w3, if_neg hne]
  have hab := s7 a.list
  rw [hl0] at hab
  obtain ⟨l1, hl1, hcb1, hlen1, hname1⟩ := aborted_list hab a.listEnd hcb0 hlen0 hname0
  refine ⟨u, hserved, ⟨htidy'.2, htidy'.1, u3, by rw [u4]; exact hr.pf, ⟨l1, by rw [hulist, hl1], hcb1, hlen1, hname1⟩,
    ⟨k3, by rw [u1, hc3], hkcb0⟩⟩, ?_, u2', ?_, ?_, u6, u5⟩
  · rw [u2]
    refine ⟨?_, a4 (Or.inr hfile.hasUid), a5 (Or.inr hfile.hasAddress), ?_, rfl⟩
    · show text k.info.name = _
      rw [a2.1, g5']
    · show cstr k.protocol = _
      rw [cstr_text hk2, hk1']
  · rw [hulist]
    exact s7 a.list
  · intro hp
    rw [hulist, s10 hp]

/-- C82, one engine: in whatever state the library is, the calls for an engine of the master send a request that the master reads as one
for that engine, and the frames of the answer leave the name, the uid, the address and the protocol in the engine object; the end callback
is called with the finished engine, other engines and the list are untouched but for an abort, and the application can go on. -/
theorem C82_load (a : App) (db : List EngineRecord) (hnames : (db.map (·.name)).Nodup) (w : World) (hr : Ready a w) (e : Nat)
    (r : EngineRecord) (hmem : r ∈ db) (hlen : r.name.length ≤ 16) (m : List Byte) (hm : Readable 32 m) (htext : text m = r.name) :
    ∃ v, w.run (load a e m) = .ok v ∧ asked (sentSince w v) = some (.engine r.name) ∧
      ∀ first rest, Replies db (sentSince w v) first rest → ∃ u, v.run ((first :: rest).map .handle) = .ok u ∧ Ready a u ∧
        Mirrors (u.engines e) r ∧ (∀ x, x ≠ e → u.engines x = w.engines x) ∧
        (w.consumers a.list).AbortedFrom (u.consumers a.list) ∧ (w.processing = false → u.consumers a.list = w.consumers a.list) ∧
        u.processing = false ∧
        u.log.getLast? = some (.streamEnd a.locoEnd a.loco true (.engine (u.engines e))) := by
  obtain ⟨v, h1, h2, h3⟩ := load_any a w hr e m hm (by rw [htext]; exact hlen)
  rw [htext] at h2 h3
  refine ⟨v, h1, h2, ?_⟩
  rintro first rest ⟨q, items, tail, hq, hw, hans⟩
  rw [h2] at hq
  have hq := (Option.some.inj hq).symm
  cases hans with
  | names => cases hq
  | engine r' hr' _ hfile =>
    have hrr : r' = r := by
      injection hq with hq
      exact List.inj_on_of_nodup_map hnames hr' hmem hq
    subst hrr
    exact h3 first rest items tail _ _ _ hw hfile

/-! ## Sessions -/

/-- The application makes calls, the station sends a request, the master answers, and the station receives the answer. -/
def Exchange (db : List EngineRecord) (w : World) (ops : List Op) (u : World) : Prop :=
  ∃ v first rest, w.run ops = .ok v ∧ Replies db (sentSince w v) first rest ∧ v.run ((first :: rest).map .handle) = .ok u

/-- What the application does next: show a page, or load the engine in a slot of the table into one of its objects. -/
inductive Next where
  | page (offset : Byte)
  | load (slot engine : Nat)

/-- The memory of a name in the table. -/
def slotName (a : App) (w : World) (i : Nat) : List Byte :=
  match w.consumers a.list with
  | .list l => (l.engineInfo.getD i ShortInfo.construct).name
  | _ => []

/-- The calls for it. -/
def Next.ops (a : App) (w : World) : Next → List Op
  | .page o => RR32.page a o
  | .load i e => RR32.load a e (slotName a w i)

/-- A session with a master: the states after each exchange. -/
inductive Session (a : App) (db : List EngineRecord) : World → List Next → List World → Prop where
  | nil (w : World) : Session a db w [] []
  | cons {w u : World} {x : Next} {xs : List Next} {us : List World} (h : Exchange db w (x.ops a w) u) (more : Session a db u xs us) :
      Session a db w (x :: xs) (u :: us)

/-- The names in the table. -/
def tableOf (a : App) (w : World) : List (List Byte) :=
  match w.consumers a.list with
  | .list l => l.engineInfo.filterMap shown
  | _ => []

theorem shows_filter {d : LocoListConsumer} {ns : List (List Byte)} (h : Shows d ns) : d.engineInfo.filterMap shown = ns := by
  have : d.engineInfo.filterMap shown = (d.engineInfo.map shown).filterMap id := by rw [List.filterMap_map]; rfl
  rw [this, h.2, List.filterMap_append]
  simp

/-- C81: an application that goes through the list page by page, from any position, is shown the names of the engines from there on, all
of them, each once and in order, and on every page the number of engines. -/
theorem C81_browse (a : App) (db : List EngineRecord) (n : Nat) (w : World) (hr : Ready a w) (first : Nat) (hb : first + 2 * n ≤ 257)
    (us : List World) (hs : Session a db w ((List.range n).map (fun i => .page (BitVec.ofNat 8 (first + 2 * i)))) us) :
    us.flatMap (tableOf a) = ((db.map (·.name)).drop first).take (2 * n) ∧
      ∀ u ∈ us, ∃ d, u.consumers a.list = .list d ∧ d.numEnginesKnownByMaster = some (BitVec.ofNat 8 db.length) ∧
        d.streamComplete = some true := by
  induction n generalizing w first us with
  | zero =>
    cases hs
    simp
  | succ n ih =>
    rw [List.range_succ_eq_map, List.map_cons, List.map_map] at hs
    cases hs with
    | cons h more =>
      rename_i u us
      obtain ⟨v, f, r, h1, h2, h3⟩ := h
      obtain ⟨v', g1, -, g3⟩ := C81_page a db w hr (BitVec.ofNat 8 (first + 2 * 0))
      have : v' = v := by
        have h1 : w.run (page a (BitVec.ofNat 8 (first + 2 * 0))) = .ok v := h1
        rw [g1] at h1
        injection h1
      subst this
      obtain ⟨u', d, k1, k2, k3, k4, k5, k6, -⟩ := g3 f r h2
      have : u' = u := by rw [k1] at h3; injection h3
      subst this
      have e : (fun i => Next.page (BitVec.ofNat 8 (first + 2 * i))) ∘ Nat.succ = fun i => .page (BitVec.ofNat 8 (first + 2 + 2 * i)) := by
        funext i
        show Next.page (BitVec.ofNat 8 (first + 2 * (i + 1))) = _
        congr 2
        omega
      rw [e] at more
      obtain ⟨m1, m2⟩ := ih u' k2 (first + 2) (by omega) us more
      have ht : tableOf a u' = ((db.map (·.name)).drop first).take 2 := by
        unfold tableOf
        rw [k3]
        simp only
        rw [shows_filter k4, Nat.mul_zero, Nat.add_zero, BitVec.toNat_ofNat, Nat.mod_eq_of_lt (by omega)]
      refine ⟨?_, ?_⟩
      · rw [List.flatMap_cons, ht, m1, show 2 * (n + 1) = 2 + 2 * n by omega, List.take_add, List.drop_drop]
      · intro x hx
        rcases List.mem_cons.mp hx with rfl | hx
        · exact ⟨d, k3, k5, k6⟩
        · exact m2 x hx

/-- C81, from the beginning to the end. -/
theorem C81_all (a : App) (db : List EngineRecord) (hdb : db.length ≤ 255) (w : World) (hr : Ready a w) (us : List World)
    (hs : Session a db w ((List.range ((db.length + 1) / 2)).map (fun i => .page (BitVec.ofNat 8 (2 * i)))) us) :
    us.flatMap (tableOf a) = db.map (·.name) := by
  have := (C81_browse a db ((db.length + 1) / 2) w hr 0 (by omega) us (by simpa using hs)).1
  rw [this, List.drop_zero, List.take_of_length_le (by simp; omega)]

/-- Ending the last request first is needed: while the parser is registered from before, the same calls without it show nothing. The
request takes the list away from the parser, so the answer arrives without any name in the table and without a call of the end
callback. -/
theorem C81_needs_abort (a : App) (w : World) (hr : Ready a w) (hreg : w.station.callbacks.configData = some a.parser) (o : Byte)
    (first : CanFrame) (rest : List CanFrame) (items : List Item) (tail : Tail) (hw : WireStream first rest items tail) :
    ∃ v u d, w.run ((page a o).drop 1) = .ok v ∧ v.run ((first :: rest).map .handle) = .ok u ∧ u.log = v.log ∧
      u.consumers a.list = .list d ∧ Shows d [] := by
  obtain ⟨l, hl, hcb, hlen, -⟩ := hr.list
  let l3 := (l.clearTable).setStreamOffset o
  let w3 : World := w.setConsumer a.list (.list l3)
  have hinit3 : (Consumer.list l3).Initialised := by
    show l.streamEndCallback ≠ .uninit
    rw [hcb]
    intro h; cases h
  have hc3 : w3.consumers a.list = .list l3 := by simp [w3, World.setConsumer]
  have hrun3 : w.run [.clearTable a.list, .setStreamOffset a.list o] = .ok w3 := by
    have e1 : w.step (.clearTable a.list) = .ok (w.setConsumer a.list (.list l.clearTable)) := by
      simp only [World.step, hl]
    have e2 : (w.setConsumer a.list (.list l.clearTable)).step (.setStreamOffset a.list o) = .ok w3 := by
      simp only [World.step, World.setConsumer, if_true]
      show Except.ok _ = Except.ok _
      congr 1
      simp only [w3, l3, World.setConsumer]
      congr 1
      funext m
      split <;> rfl
    rw [World.run_cons, e1]
    show ((w.setConsumer a.list (.list l.clearTable)).run [.setStreamOffset a.list o]) = _
    rw [World.run_cons, e2]
    rfl
  have hs3 : Sound w3 := sound_consumers hr.sound rfl (setConsumer_init w a.list _ (fun _ => hinit3))
  obtain ⟨v, u, h1, h2, -, h4, h5, -⟩ := C46_false w3 hs3 a.tx hr.tx a.parser a.list (by rw [hc3]; exact hinit3) hreg
    (.requestEngineList o (some a.parser)) (.engineList o) first rest items tail hw
  have hv : (w3.consumers a.list).AbortedFrom (v.consumers a.list) := by
    have hs4 := (C58_step w3 hs3 (.parserStart a.parser (some a.list)) (by show (w3.consumers a.list).Initialised; rw [hc3]; exact hinit3)).2 _ rfl
    obtain ⟨v', k1, -, -, -, -, -, k7, -⟩ := (Requests.engineList (w := w3.setParser a.parser ((w3.parsers a.parser).startStreamConsumer (some a.list)))
      (n := a.parser) o).effect hs4 (cb := a.tx) hr.tx
    have : v' = v := by
      rw [World.run_cons] at h1
      have h1 : (World.step (w3.setParser a.parser ((w3.parsers a.parser).startStreamConsumer (some a.list)))
        (.requestEngineList o (some a.parser))).bind _ = _ := h1
      rw [k1] at h1
      injection h1
    rw [← this]
    exact k7 a.list
  have hshow : ∃ d, v.consumers a.list = .list d ∧ Shows d [] := by
    rw [hc3] at hv
    rcases hv with hv | ⟨m, hm, hv⟩
    · exact ⟨l3, hv, shows_clear l hlen⟩
    · cases hm
      exact ⟨_, hv, shows_clear l3 (by simp [l3, LocoListConsumer.setStreamOffset, LocoListConsumer.clearTable, hlen])⟩
  obtain ⟨d, hd1, hd2⟩ := hshow
  refine ⟨v, u, d, ?_, h2, h4, by rw [h5, hd1], hd2⟩
  show w.run ([.clearTable a.list, .setStreamOffset a.list o] ++
    [.parserStart a.parser (some a.list), .requestEngineList o (some a.parser)]) = _
  rw [World.run_append, hrun3]
  exact h1

theorem session_append {a : App} {db : List EngineRecord} {xs ys : List Next} {w : World} {us : List World}
    (h : Session a db w (xs ++ ys) us) :
    ∃ us1 us2, us = us1 ++ us2 ∧ Session a db w xs us1 ∧ Session a db (us1.getLastD w) ys us2 := by
  induction xs generalizing w us with
  | nil => exact ⟨[], us, rfl, .nil w, h⟩
  | cons x xs ih =>
    cases h with
    | cons h more =>
      obtain ⟨us1, us2, rfl, h1, h2⟩ := ih more
      refine ⟨_ :: us1, us2, rfl, .cons h h1, ?_⟩
      rw [List.getLastD_cons]
      exact h2

theorem session_one {a : App} {db : List EngineRecord} {x : Next} {w : World} {us : List World} (h : Session a db w [x] us) :
    ∃ u, us = [u] ∧ Exchange db w (x.ops a w) u := by
  cases h with
  | cons h more =>
    cases more
    exact ⟨_, rfl, h⟩

theorem exchange_page {a : App} {db : List EngineRecord} {w u : World} {o : Byte} (hr : Ready a w)
    (h : Exchange db w (page a o) u) : ∃ d, Ready a u ∧ u.consumers a.list = .list d ∧
      Shows d (((db.map (·.name)).drop o.toNat).take 2) ∧ u.engines = w.engines ∧ u.processing = false := by
  obtain ⟨v, f, r, h1, h2, h3⟩ := h
  obtain ⟨v', g1, -, g3⟩ := C81_page a db w hr o
  rw [h1] at g1
  cases g1
  obtain ⟨u', d, k1, k2, k3, k4, -, -, -, k8, k9, -⟩ := g3 f r h2
  rw [h3] at k1
  cases k1
  exact ⟨d, k2, k3, k4, k8, k9⟩

theorem exchange_load {a : App} {db : List EngineRecord} (hnames : (db.map (·.name)).Nodup) {w u : World} {e i : Nat} {r : EngineRecord}
    (hmem : r ∈ db) (hlen : r.name.length ≤ 16) (hr : Ready a w) (hp : w.processing = false) (d : LocoListConsumer) (hd : w.consumers a.list = .list d)
    (ns : List (List Byte)) (hs : Shows d ns) (hi : ns[i]? = some r.name) (h : Exchange db w ((Next.load i e).ops a w) u) :
    Ready a u ∧ u.consumers a.list = .list d ∧ Mirrors (u.engines e) r ∧ (∀ x, x ≠ e → u.engines x = w.engines x) ∧ u.processing = false := by
  obtain ⟨v, f, rest, h1, h2, h3⟩ := h
  obtain ⟨l, hl, -, hl2, hl3⟩ := hr.list
  rw [hd] at hl
  cases hl
  obtain ⟨x, hx1, hx2⟩ : ∃ x, d.engineInfo[i]? = some x ∧ shown x = some r.name := by
    have h1 : (d.engineInfo.map shown)[i]? = some (some r.name) := by
      rw [hs.2, List.getElem?_append_left (by
        have := (List.getElem?_eq_some_iff.mp hi).1
        simpa using this), List.getElem?_map, hi]
      rfl
    rw [List.getElem?_map] at h1
    cases hx : d.engineInfo[i]? with
    | none => rw [hx] at h1; cases h1
    | some x =>
      rw [hx] at h1
      exact ⟨x, rfl, by injection h1⟩
  have hslot : slotName a w i = x.name := by
    unfold slotName
    rw [hd]
    simp only [List.getD_eq_getElem?_getD, hx1, Option.getD_some]
  have hx3 : x.name.length = 33 := hl3 x (List.mem_of_getElem? hx1)
  have hx4 : text x.name = r.name := by
    unfold shown at hx2
    split at hx2
    · cases hx2
    · injection hx2
  obtain ⟨v', g1, -, g3⟩ := C82_load a db hnames w hr e r hmem hlen (slotName a w i) (by rw [hslot]; exact Or.inl (by omega)) (by rw [hslot, hx4])
  have h1 : w.run (load a e (slotName a w i)) = .ok v := h1
  rw [h1] at g1
  cases g1
  obtain ⟨u', k1, k2, k3, k4, -, k6, k7, -⟩ := g3 f rest h2
  rw [h3] at k1
  cases k1
  exact ⟨k2, by rw [k6 hp, hd], k3, k4, k7⟩

/-- The session that loads the first `n` engines of a master into the engine objects `0`, `1`, …: a page for every other one. -/
def mirrorSteps (n : Nat) : List Next :=
  (List.range n).flatMap (fun i => if i % 2 = 0 then [.page (BitVec.ofNat 8 i), .load 0 i] else [.load 1 i])

theorem mirror_invariant (a : App) (db : List EngineRecord) (hnames : (db.map (·.name)).Nodup) (hlen : ∀ r ∈ db, r.name.length ≤ 16)
    (w : World) (hr : Ready a w) (n : Nat) (hn : n ≤ db.length) (hn' : n ≤ 256) (us : List World) (hs : Session a db w (mirrorSteps n) us) :
    Ready a (us.getLastD w) ∧ (∀ i, (h : i < n) → Mirrors ((us.getLastD w).engines i) (db[i]'(by omega))) ∧
      (∀ i, n ≤ i → (us.getLastD w).engines i = w.engines i) ∧
      (n % 2 = 1 → (us.getLastD w).processing = false ∧ ∃ d, (us.getLastD w).consumers a.list = .list d ∧
        Shows d (((db.map (·.name)).drop (n - 1)).take 2)) := by
  induction n generalizing us with
  | zero =>
    cases hs
    exact ⟨hr, fun i h => by omega, fun _ _ => rfl, fun h => by omega⟩
  | succ n ih =>
    unfold mirrorSteps at hs
    rw [List.range_succ, List.flatMap_append] at hs
    obtain ⟨us1, us2, rfl, h1, h2⟩ := session_append hs
    obtain ⟨i1, i2, i3, i4⟩ := ih (by omega) (by omega) us1 h1
    generalize us1.getLastD w = x at i1 i2 i3 i4 h2
    have hmem : db[n]'(by omega) ∈ db := List.getElem_mem _
    simp only [List.flatMap_cons, List.flatMap_nil, List.append_nil] at h2
    split at h2
    · next he =>
      obtain ⟨as, bs, rfl, h3, h4⟩ := session_append (xs := [.page (BitVec.ofNat 8 n)]) (ys := [.load 0 n]) h2
      obtain ⟨y, rfl, h5⟩ := session_one h3
      obtain ⟨u, rfl, h6⟩ := session_one h4
      obtain ⟨d, p1, p2, p3, p4, p5⟩ := exchange_page (o := BitVec.ofNat 8 n) i1 h5
      rw [BitVec.toNat_ofNat, Nat.mod_eq_of_lt (by omega)] at p3
      obtain ⟨q1, q2, q3, q4, q5⟩ := exchange_load hnames hmem (hlen _ hmem) p1 p5 d p2 _ p3 (by
        rw [List.getElem?_take_of_lt (by omega), List.getElem?_drop, List.getElem?_map]
        simp [List.getElem?_eq_getElem (show n < db.length by omega)]) h6
      have hu : (us1 ++ ([y] ++ [u])).getLastD w = u := by simp
      rw [hu]
      refine ⟨q1, fun i hi => ?_, fun i hi => ?_, fun _ => ⟨q5, d, q2, by simpa using p3⟩⟩
      · by_cases hin : i = n
        · subst hin; exact q3
        · rw [q4 i hin, p4]
          exact i2 i (by omega)
      · rw [q4 i (by omega), p4, i3 i (by omega)]
    · next he =>
      obtain ⟨j1, d, j2, j3⟩ := i4 (by omega)
      obtain ⟨u, rfl, h4⟩ := session_one h2
      obtain ⟨q1, q2, q3, q4, q5⟩ := exchange_load hnames hmem (hlen _ hmem) i1 j1 d j2 _ j3 (by
        rw [List.getElem?_take_of_lt (by omega), List.getElem?_drop, List.getElem?_map, show n - 1 + 1 = n by omega]
        simp [List.getElem?_eq_getElem (show n < db.length by omega)]) h4
      have hu : (us1 ++ [u]).getLastD w = u := by simp
      rw [hu]
      refine ⟨q1, fun i hi => ?_, fun i hi => ?_, fun h => by omega⟩
      · by_cases hin : i = n
        · subst hin; exact q3
        · rw [q4 i hin]
          exact i2 i (by omega)
      · rw [q4 i (by omega), i3 i (by omega)]

/-- C82: after a session in which the application went through all engines of a master and loaded each from its slot in the table, the
engine objects hold the database of the master: names, uids, addresses and protocols, in order. All other engine objects are as they
were. -/
theorem C82_mirror (a : App) (db : List EngineRecord) (hnames : (db.map (·.name)).Nodup) (hlen : ∀ r ∈ db, r.name.length ≤ 16)
    (hdb : db.length ≤ 255) (w : World) (hr : Ready a w) (us : List World) (hs : Session a db w (mirrorSteps db.length) us) :
    (∀ i, (h : i < db.length) → Mirrors ((us.getLastD w).engines i) db[i]) ∧
      ∀ i, db.length ≤ i → (us.getLastD w).engines i = w.engines i :=
  have h := mirror_invariant a db hnames hlen w hr db.length (Nat.le_refl _) (by omega) us hs
  ⟨h.2.1, h.2.2.1⟩

/-! ## Every master can answer -/

/-- A page of the list as a document. -/
def listDoc (ns : List (List Byte)) (known : Nat) : List Item :=
  .section [] (str "loknamen") :: ns.map (fun n => .entry (str "\n ") (str "name") n) ++
    [.section [] (str "numloks"), .entry (str "\n ") (str "wert") ((Nat.toDigits 10 known).map ch)]

/-- The file of an engine as a document. -/
def engineDoc (r : EngineRecord) : List Item :=
  [.section [] (str "lokomotive"), .entry (str "\n ") (str "uid") (str "0x" ++ hexText r.uid),
    .entry (str " ") (str "adresse") (str "0x" ++ hexText r.address), .entry (str " ") (str "typ") r.protocol]

theorem listDoc_entries (ns : List (List Byte)) (known : Nat) :
    entriesOf [] (listDoc ns known) = ns.map (fun n => ⟨str "loknamen", str "name", n⟩) ++
      [⟨str "numloks", str "wert", (Nat.toDigits 10 known).map ch⟩] := by
  have : ∀ ns : List (List Byte), entriesOf (str "loknamen") (ns.map (fun n => Item.entry (str "\n ") (str "name") n) ++
      [.section [] (str "numloks"), .entry (str "\n ") (str "wert") ((Nat.toDigits 10 known).map ch)]) =
      ns.map (fun n => ⟨str "loknamen", str "name", n⟩) ++ [⟨str "numloks", str "wert", (Nat.toDigits 10 known).map ch⟩] := by
    intro ns
    induction ns with
    | nil => rfl
    | cons n ns ih => exact congrArg (_ :: ·) ih
  exact this ns

theorem numeral_value {base : Nat} (hb : base ≤ 16) {l : List Byte} {n : Nat} (h : Numeral base l n) : IsValue l := by
  induction h with
  | nil => intro b hb; cases hb
  | snoc h1 h2 h3 ih =>
    rename_i d c
    intro b hb'
    rcases List.mem_append.mp hb' with hb' | hb'
    · exact ih b hb'
    · rw [List.mem_singleton.mp hb']
      have : ∀ d < 16, ch (Nat.digitChar d) ≠ ch '\n' ∧ ch (Nat.digitChar d).toUpper ≠ ch '\n' := by decide
      rcases h3 with rfl | rfl
      · exact (this d (by omega)).1
      · exact (this d (by omega)).2

theorem plain_value {l : List Byte} (h : IsPlain l) : IsValue l := fun b hb => (h b hb).2

theorem text_plain {l : List Byte} (h : IsPlain l) : text l = l := text_of_noNul l (fun b hb => (h b hb).1)

theorem listDoc_file (ns : List (List Byte)) (hns : ∀ n ∈ ns, IsPlain n ∧ n.length ≤ 16) (known : Byte) :
    NamedListFile (entriesOf [] (listDoc ns known.toNat)) ns known := by
  have hd : ((Nat.toDigits 10 known.toNat).map ch).length < 26 := by
    rw [List.length_map]
    have := (Nat.length_toDigits_le_iff (b := 10) (k := 3) (by decide) (by decide)).mpr (show known.toNat < 10 ^ 3 by have := known.isLt; omega)
    omega
  rw [listDoc_entries]
  refine ⟨?_, ?_, ?_, ?_, ?_, ?_⟩
  · intro e he
    rcases List.mem_append.mp he with he | he
    · obtain ⟨n, hn, rfl⟩ := List.mem_map.mp he
      exact ⟨Or.inl (by have := (hns n hn).2; show n.length < 26; omega), Or.inl (by dsimp only; decide)⟩
    · rw [List.mem_singleton.mp he]
      exact ⟨Or.inl hd, Or.inl (by dsimp only; decide)⟩
  · intro e he
    rcases List.mem_append.mp he with he | he
    · obtain ⟨n, hn, rfl⟩ := List.mem_map.mp he
      exact ⟨by dsimp only; decide, by dsimp only; decide⟩
    · rw [List.mem_singleton.mp he]
      exact ⟨by dsimp only; decide, by dsimp only; decide⟩
  · intro e he
    rcases List.mem_append.mp he with he | he
    · obtain ⟨n, hn, rfl⟩ := List.mem_map.mp he
      exact ⟨by dsimp only; decide, by dsimp only; decide⟩
    · rw [List.mem_singleton.mp he]
      exact ⟨by dsimp only; decide, by dsimp only; decide⟩
  · rw [List.filter_append, List.filter_eq_self.mpr (by
      intro e he
      obtain ⟨n, hn, rfl⟩ := List.mem_map.mp he
      exact decide_eq_true rfl)]
    rw [List.filter_cons_of_neg (by simp; decide), List.filter_nil, List.append_nil, List.map_map]
    exact (List.map_congr_left (g := id) (fun n hn => text_plain (hns n hn).1)).trans (List.map_id _)
  · intro e he h1 h2
    rcases List.mem_append.mp he with he | he
    · obtain ⟨n, hn, rfl⟩ := List.mem_map.mp he
      exact absurd h1 (by dsimp only; decide)
    · rw [List.mem_singleton.mp he]
      exact ⟨hd, numeral_toDigits 10 (by decide) _, toDigits_ne 10 _⟩
  · exact ⟨_, List.mem_append_right _ (List.mem_singleton.mpr rfl), rfl, rfl⟩

theorem engineDoc_file (r : EngineRecord) (hr : r.Valid) : NamedEngineFile (entriesOf [] (engineDoc r)) r.uid r.address r.protocol := by
  have h1 : entriesOf [] (engineDoc r) = [⟨str "lokomotive", str "uid", str "0x" ++ hexText r.uid⟩,
      ⟨str "lokomotive", str "adresse", str "0x" ++ hexText r.address⟩, ⟨str "lokomotive", str "typ", r.protocol⟩] := rfl
  have l1 : (str "0x").length = 2 := rfl
  have l2 := hexText_length r.uid
  have l3 := hexText_length r.address
  have l4 := hr.protocolLength
  have hex : ∀ v : U32, HexValue (str "0x" ++ hexText v) v := by
    intro v
    have := hexText_length v
    exact ⟨by rw [List.length_append]; omega, _, _, rfl, Or.inr (Or.inl rfl), numeral_toDigits 16 (by decide) _, toDigits_ne 16 _⟩
  rw [h1]
  refine ⟨?_, ?_, ?_, ?_, ?_, ?_, ⟨_, List.mem_cons_self .., rfl, rfl⟩, ⟨_, List.mem_cons_of_mem _ (List.mem_cons_self ..), rfl, rfl⟩,
    ⟨_, List.mem_cons_of_mem _ (List.mem_cons_of_mem _ (List.mem_cons_self ..)), rfl, rfl⟩, hr.protocolLength⟩
  all_goals
    intro e he
    simp only [List.mem_cons, List.not_mem_nil, or_false] at he
    rcases he with rfl | rfl | rfl
  · exact Or.inl (by simp only [List.length_append]; omega)
  · exact Or.inl (by simp only [List.length_append]; omega)
  · exact Or.inl (show r.protocol.length < 26 by omega)
  · exact ⟨by dsimp only; decide, by dsimp only; decide⟩
  · exact ⟨by dsimp only; decide, by dsimp only; decide⟩
  · exact ⟨by dsimp only; decide, by dsimp only; decide⟩
  · exact ⟨by dsimp only; decide, by dsimp only; decide⟩
  · exact ⟨by dsimp only; decide, by dsimp only; decide⟩
  · exact ⟨by dsimp only; decide, by dsimp only; decide⟩
  · exact fun _ _ => hex r.uid
  · exact fun _ h => absurd h (by dsimp only; decide)
  · exact fun _ h => absurd h (by dsimp only; decide)
  · exact fun _ h => absurd h (by dsimp only; decide)
  · exact fun _ _ => hex r.address
  · exact fun _ h => absurd h (by dsimp only; decide)
  · exact fun _ h => absurd h (by dsimp only; decide)
  · exact fun _ h => absurd h (by dsimp only; decide)
  · exact fun _ _ => text_plain hr.protocol

theorem render_length (items : List Item) (h : ∀ i ∈ items, i.render.length ≤ 100) : (render items).length ≤ 100 * items.length := by
  induction items with
  | nil => exact Nat.le_refl _
  | cons i items ih =>
    have h1 := h i (List.mem_cons_self ..)
    have h2 := ih (fun x hx => h x (List.mem_cons_of_mem _ hx))
    show (i.render ++ render items).length ≤ _
    rw [List.length_append, List.length_cons]
    omega

/-- Whatever the master is asked for, if it is in the database, there are frames of an answer. -/
theorem reply_exists (db : List EngineRecord) (hdb : db.length ≤ 255) (hv : ∀ r ∈ db, r.Valid) (fs : List CanFrame) (q : Asked)
    (hq : asked fs = some q) (hin : (∃ o, q = .names o 2) ∨ ∃ r ∈ db, q = .engine r.name) : ∃ first rest, Replies db fs first rest := by
  have hd : ∀ n ≤ 255, ((Nat.toDigits 10 n).map ch).length ≤ 3 := by
    intro n hn
    rw [List.length_map]
    exact (Nat.length_toDigits_le_iff (by decide) (by decide)).mpr (by omega)
  rcases hin with ⟨o, rfl⟩ | ⟨r, hr, rfl⟩
  · generalize hns : ((db.map (·.name)).drop o).take 2 = ns
    have hl : ns.length ≤ 2 := by rw [← hns]; simp
    have hvn : ∀ n ∈ ns, IsPlain n ∧ n.length ≤ 16 := by
      intro n hn
      rw [← hns] at hn
      obtain ⟨r, hr, rfl⟩ := List.mem_map.mp (List.mem_of_mem_drop (List.mem_of_mem_take hn))
      exact ⟨(hv r hr).name, (hv r hr).nameLength⟩
    have hk : (BitVec.ofNat 8 db.length).toNat = db.length := by rw [BitVec.toNat_ofNat, Nat.mod_eq_of_lt (by omega)]
    have hdl := hd db.length hdb
    have hitems : ∀ i ∈ listDoc ns db.length, i.WellFormed ∧ i.Fits ∧ i.render.length ≤ 100 := by
      intro i hi
      unfold listDoc at hi
      rcases List.mem_append.mp hi with hi | hi
      · rcases List.mem_cons.mp hi with rfl | hi
        · decide
        · obtain ⟨n, hn, rfl⟩ := List.mem_map.mp hi
          refine ⟨⟨by decide, by decide, plain_value (hvn n hn).1⟩, ⟨by decide, ?_⟩, ?_⟩
          · have := (hvn n hn).2
            show n.length ≤ 26
            omega
          · have := (hvn n hn).2
            have h1 : (str "\n ").length = 2 := rfl
            have h2 : (str "name").length = 4 := rfl
            simp only [Item.render, List.length_append, List.length_cons, List.length_nil]
            omega
      · simp only [List.mem_cons, List.not_mem_nil, or_false] at hi
        rcases hi with rfl | rfl
        · decide
        · refine ⟨⟨by decide, by decide, numeral_value (by decide) (numeral_toDigits 10 (by decide) _)⟩, ⟨by decide, ?_⟩, ?_⟩
          · show _ ≤ 26
            omega
          · have h1 : (str "\n ").length = 2 := rfl
            have h2 : (str "wert").length = 4 := rfl
            simp only [Item.render, List.length_append, List.length_cons, List.length_nil]
            omega
    have hlen := render_length (listDoc ns db.length) (fun i hi => (hitems i hi).2.2)
    have hlen2 : (listDoc ns db.length).length ≤ 5 := by simp [listDoc]; omega
    obtain ⟨first, rest, pad, hw, -⟩ := wire_exists (listDoc ns db.length) (fun i hi => (hitems i hi).1) (fun i hi => (hitems i hi).2.1)
      (by simp [listDoc]) (by omega)
    refine ⟨first, rest, _, _, _, hq, hw, .names _ _ (BitVec.ofNat 8 db.length) hk _ ?_⟩
    rw [hns, ← hk]
    have := listDoc_file ns hvn (BitVec.ofNat 8 db.length)
    simpa [hk] using this
  · have h1 := hexText_length r.uid
    have h2 := hexText_length r.address
    have h3 := (hv r hr).protocolLength
    have h5 : ∀ v : U32, IsValue (str "0x" ++ hexText v) := by
      intro v b hb
      rcases List.mem_append.mp hb with hb | hb
      · have : ∀ b ∈ str "0x", b ≠ ch '\n' := by decide
        exact this b hb
      · exact numeral_value (Nat.le_refl _) (numeral_toDigits 16 (by decide) _) b hb
    have hitems : ∀ i ∈ engineDoc r, i.WellFormed ∧ i.Fits ∧ i.render.length ≤ 100 := by
      intro i hi
      have k1 : (str "\n ").length = 2 := rfl
      have k2 : (str " ").length = 1 := rfl
      have k3 : (str "uid").length = 3 := rfl
      have k4 : (str "adresse").length = 7 := rfl
      have k5 : (str "typ").length = 3 := rfl
      have k6 : (str "0x").length = 2 := rfl
      simp only [engineDoc, List.mem_cons, List.not_mem_nil, or_false] at hi
      rcases hi with rfl | rfl | rfl | rfl
      · decide
      · refine ⟨⟨by decide, by decide, h5 _⟩, ⟨by decide, ?_⟩, ?_⟩
        · show _ ≤ 26
          rw [List.length_append]
          omega
        · simp only [Item.render, List.length_append, List.length_cons, List.length_nil]
          omega
      · refine ⟨⟨by decide, by decide, h5 _⟩, ⟨by decide, ?_⟩, ?_⟩
        · show _ ≤ 26
          rw [List.length_append]
          omega
        · simp only [Item.render, List.length_append, List.length_cons, List.length_nil]
          omega
      · refine ⟨⟨by decide, by decide, plain_value (hv r hr).protocol⟩, ⟨by decide, ?_⟩, ?_⟩
        · show _ ≤ 26
          omega
        · simp only [Item.render, List.length_append, List.length_cons, List.length_nil]
          omega
    have hlen := render_length (engineDoc r) (fun i hi => (hitems i hi).2.2)
    have hlen2 : (engineDoc r).length = 4 := rfl
    obtain ⟨first, rest, pad, hw, -⟩ := wire_exists (engineDoc r) (fun i hi => (hitems i hi).1) (fun i hi => (hitems i hi).2.1)
      (by simp [engineDoc]) (by omega)
    exact ⟨first, rest, _, _, _, hq, hw, .engine r hr _ (engineDoc_file r (hv r hr))⟩

/-- Such a session is possible with every master, and whatever was done so far: nothing the library does is in its way. -/
theorem C81_possible (a : App) (db : List EngineRecord) (hdb : db.length ≤ 255) (hv : ∀ r ∈ db, r.Valid) (w : World) (hr : Ready a w)
    (os : List Byte) : ∃ us, Session a db w (os.map .page) us := by
  induction os generalizing w with
  | nil => exact ⟨[], .nil w⟩
  | cons o os ih =>
    obtain ⟨v, h1, h2, h3⟩ := C81_page a db w hr o
    obtain ⟨first, rest, h4⟩ := reply_exists db hdb hv _ _ h2 (Or.inl ⟨_, rfl⟩)
    obtain ⟨u, d, h5, h6, -⟩ := h3 first rest h4
    obtain ⟨us, h7⟩ := ih u h6
    exact ⟨u :: us, .cons ⟨v, first, rest, h1, h4, h5⟩ h7⟩

theorem session_snoc {a : App} {db : List EngineRecord} {xs ys : List Next} {w : World} {us vs : List World}
    (h : Session a db w xs us) (h' : Session a db (us.getLastD w) ys vs) : Session a db w (xs ++ ys) (us ++ vs) := by
  induction h with
  | nil w => exact h'
  | cons h more ih =>
    rw [List.getLastD_cons] at h'
    exact .cons h (ih h')

/-- The exchanges for engine number `n` of a master. -/
def mirrorStep (n : Nat) : List Next := if n % 2 = 0 then [.page (BitVec.ofNat 8 n), .load 0 n] else [.load 1 n]

theorem mirrorSteps_succ (n : Nat) : mirrorSteps (n + 1) = mirrorSteps n ++ mirrorStep n := by
  unfold mirrorSteps mirrorStep
  rw [List.range_succ, List.flatMap_append]
  simp only [List.flatMap_cons, List.flatMap_nil, List.append_nil]

theorem step_possible (a : App) (db : List EngineRecord) (hnames : (db.map (·.name)).Nodup) (hdb : db.length ≤ 255) (hv : ∀ r ∈ db, r.Valid)
    (n : Nat) (hn : n < db.length) (x : World) (i1 : Ready a x)
    (i4 : n % 2 = 1 → ∃ d, x.consumers a.list = .list d ∧ Shows d (((db.map (·.name)).drop (n - 1)).take 2)) :
    ∃ us, Session a db x (mirrorStep n) us := by
  have hlen : ∀ r ∈ db, r.name.length ≤ 16 := fun r h => (hv r h).nameLength
  -- one engine, from its slot
  have one : ∀ (x : World) (n : Nat) (hn : n < db.length) (i : Nat) (d : LocoListConsumer) (ns : List (List Byte)), Ready a x →
      x.consumers a.list = .list d → Shows d ns → ns[i]? = some db[n].name → ∃ us, Session a db x [.load i n] us := by
    intro x n hn i d ns hx hd hs hi
    obtain ⟨l, hl, -, hl2, hl3⟩ := hx.list
    rw [hd] at hl
    cases hl
    obtain ⟨y, hx1, hx2⟩ : ∃ y, d.engineInfo[i]? = some y ∧ shown y = some db[n].name := by
      have h1 : (d.engineInfo.map shown)[i]? = some (some db[n].name) := by
        rw [hs.2, List.getElem?_append_left (by
          have := (List.getElem?_eq_some_iff.mp hi).1
          simpa using this), List.getElem?_map, hi]
        rfl
      rw [List.getElem?_map] at h1
      cases hx : d.engineInfo[i]? with
      | none => rw [hx] at h1; cases h1
      | some y =>
        rw [hx] at h1
        exact ⟨y, rfl, by injection h1⟩
    have hslot : slotName a x i = y.name := by
      unfold slotName
      rw [hd]
      simp only [List.getD_eq_getElem?_getD, hx1, Option.getD_some]
    have hx4 : text y.name = db[n].name := by
      unfold shown at hx2
      split at hx2
      · cases hx2
      · injection hx2
    have hx3 : y.name.length = 33 := hl3 y (List.mem_of_getElem? hx1)
    obtain ⟨v, h1, h2, h3⟩ := C82_load a db hnames x hx n db[n] (List.getElem_mem _) (hlen _ (List.getElem_mem _)) (slotName a x i)
      (by rw [hslot]; exact Or.inl (by omega)) (by rw [hslot, hx4])
    obtain ⟨first, rest, h4⟩ := reply_exists db hdb hv _ _ h2 (Or.inr ⟨_, List.getElem_mem _, rfl⟩)
    obtain ⟨u, h5, -⟩ := h3 first rest h4
    exact ⟨[u], .cons ⟨v, first, rest, h1, h4, h5⟩ (.nil u)⟩
  unfold mirrorStep
  split
  · obtain ⟨us1, h2⟩ := C81_possible a db hdb hv x i1 [BitVec.ofNat 8 n]
    obtain ⟨y, rfl, h3⟩ := session_one h2
    obtain ⟨d, p1, p2, p3, p4, p5⟩ := exchange_page (o := BitVec.ofNat 8 n) i1 h3
    rw [BitVec.toNat_ofNat, Nat.mod_eq_of_lt (by omega)] at p3
    obtain ⟨us2, h4⟩ := one y n (by omega) 0 d _ p1 p2 p3 (by
      rw [List.getElem?_take_of_lt (by omega), List.getElem?_drop, List.getElem?_map]
      simp [List.getElem?_eq_getElem (show n < db.length by omega)])
    exact ⟨_, session_snoc (xs := [.page (BitVec.ofNat 8 n)]) h2 h4⟩
  · obtain ⟨d, j2, j3⟩ := i4 (by omega)
    exact one x n (by omega) 1 d _ i1 j2 j3 (by
      rw [List.getElem?_take_of_lt (by omega), List.getElem?_drop, List.getElem?_map, show n - 1 + 1 = n by omega]
      simp [List.getElem?_eq_getElem (show n < db.length by omega)])

/-- And so is one that loads all engines. -/
theorem C82_possible (a : App) (db : List EngineRecord) (hnames : (db.map (·.name)).Nodup) (hdb : db.length ≤ 255) (hv : ∀ r ∈ db, r.Valid)
    (w : World) (hr : Ready a w) (n : Nat) (hn : n ≤ db.length) : ∃ us, Session a db w (mirrorSteps n) us := by
  have hlen : ∀ r ∈ db, r.name.length ≤ 16 := fun r h => (hv r h).nameLength
  induction n with
  | zero => exact ⟨[], .nil w⟩
  | succ n ih =>
    obtain ⟨us, h1⟩ := ih (by omega)
    obtain ⟨i1, -, -, i4⟩ := mirror_invariant a db hnames hlen w hr n (by omega) (by omega) us h1
    obtain ⟨vs, h2⟩ := step_possible a db hnames hdb hv n (by omega) _ i1 (fun h => (i4 h).2)
    rw [mirrorSteps_succ]
    exact ⟨_, session_snoc h1 h2⟩

/-! ## Cases -/

/-- A master with three engines. -/
def caseMaster : List EngineRecord :=
  [⟨str "BR 12", 0x4006#32, 6#32, str "mm2_prg"⟩, ⟨str "Re 460", 0xC003#32, 3#32, str "dcc"⟩, ⟨str "ET 515 Limburger", 0x401A#32, 0x1A#32, str "mfx"⟩]

instance (l : List Byte) : Decidable (IsPlain l) := by unfold IsPlain; infer_instance

theorem caseMaster_valid : ∀ r ∈ caseMaster, r.Valid := by
  intro r hr
  have h : ∀ r ∈ caseMaster, IsPlain r.name ∧ r.name.length ≤ 16 ∧ IsPlain r.protocol ∧ r.protocol.length ≤ 7 := by decide +kernel
  obtain ⟨h1, h2, h3, h4⟩ := h r hr
  exact ⟨h1, h2, h3, h4⟩

/-- The objects of an application after start-up. -/
theorem ready_started : ∃ w, Ready ⟨0, 7, 9, 8, 10, 5⟩ w := by
  let l : LocoListConsumer := { LocoListConsumer.construct with streamEndCallback := .obj 9 }
  obtain ⟨w, -, h2, h3, h4, h5, h6, -⟩ := started (fun c => if c = 7 then .list l else .loco ⟨.null, .obj 10⟩) (fun _ => Locomotive.construct [])
  refine ⟨w, h2, h3, h5, by rw [h4], ⟨l, by rw [h6]; rfl, rfl, rfl, ?_⟩, ⟨⟨.null, .obj 10⟩, by rw [h6]; rfl, rfl⟩⟩
  intro i hi
  rw [List.eq_of_mem_replicate hi]
  rfl

/-- C82: a session with this master, and what the engine objects hold after it. -/
example : ∃ (w : World) (us : List World), Session ⟨0, 7, 9, 8, 10, 5⟩ caseMaster w (mirrorSteps 3) us ∧
    text ((us.getLastD w).engines 2).info.name = str "ET 515 Limburger" ∧ ((us.getLastD w).engines 1).data.uid = 0xC003#32 := by
  obtain ⟨w, hr⟩ := ready_started
  have hn : (caseMaster.map (·.name)).Nodup := by decide +kernel
  obtain ⟨us, h⟩ := C82_possible _ caseMaster hn (by decide) caseMaster_valid w hr 3 (by decide)
  have hm := (C82_mirror _ caseMaster hn (fun r hr => (caseMaster_valid r hr).nameLength) (by decide) w hr us h).1
  exact ⟨w, us, h, (hm 2 (by decide)).name, (hm 1 (by decide)).uid⟩

/-- C81: two pages of this master. -/
example : ∃ (w : World) (us : List World), Session ⟨0, 7, 9, 8, 10, 5⟩ caseMaster w [.page 0#8, .page 2#8] us ∧
    us.flatMap (tableOf ⟨0, 7, 9, 8, 10, 5⟩) = [str "BR 12", str "Re 460", str "ET 515 Limburger"] := by
  obtain ⟨w, hr⟩ := ready_started
  obtain ⟨us, h⟩ := C81_possible _ caseMaster (by decide) caseMaster_valid w hr [0#8, 2#8]
  exact ⟨w, us, h, C81_all _ caseMaster (by decide) w hr us h⟩

end RR32
