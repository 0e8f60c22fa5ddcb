import Verif.Proofs.Busy

/-! # C87: going through the engines of a master on a busy bus, asking again when answers are lost -/

set_option autoImplicit false

namespace RR32

open Spec

/-! ## Exchanges on a busy bus -/

/-- The application wants something. In the meantime other traffic may go on: control calls are made and frames are received. It asks; if
the answer does not come, or only parts of it, or damaged, or something else comes, it asks again. In the end it asks and the frames of the
answer come, with control traffic between them. -/
inductive Busy (a : App) (db : List EngineRecord) (x : Next) : World → World → Prop where
  | answered {w v u : World} {ops : List Op} {first : CanFrame} {rest : List CanFrame} (ask : w.run (x.ops a w) = .ok v)
      (reply : Replies db (sentSince w v) first rest) (heard : ops.filter (fun o => !isControl o) = (first :: rest).map .handle)
      (got : v.run ops = .ok u) : Busy a db x w u
  | again {w v w' u : World} {ops : List Op} (ask : w.run (x.ops a w) = .ok v) (heard : ∀ op ∈ ops, Heard op) (got : v.run ops = .ok w')
      (more : Busy a db x w' u) : Busy a db x w u
  | before {w w' u : World} {ops : List Op} (heard : ∀ op ∈ ops, Heard op) (got : w.run ops = .ok w') (more : Busy a db x w' u) :
      Busy a db x w u

/-- A session on a busy bus. -/
inductive BusySession (a : App) (db : List EngineRecord) : World → List Next → List World → Prop where
  | nil (w : World) : BusySession a db w [] []
  | cons {w u : World} {x : Next} {xs : List Next} {us : List World} (h : Busy a db x w u) (more : BusySession a db u xs us) :
      BusySession a db w (x :: xs) (u :: us)

/-- What was told to the application last, leaving aside the reports of control traffic. -/
def lastTold (w : World) : Option LogEntry := (w.log.filter (fun e => !isCall e)).getLast?

/-! ## Lemmas -/

theorem heard_of_filter {ops : List Op} {fs : List CanFrame} (h : ops.filter (fun o => !isControl o) = fs.map .handle) : ∀ op ∈ ops, Heard op := by
  intro op hop
  cases hc : isControl op with
  | true => exact Or.inl hc
  | false =>
    have : op ∈ ops.filter (fun o => !isControl o) := List.mem_filter.mpr ⟨hop, by rw [hc]; rfl⟩
    rw [h] at this
    obtain ⟨f, -, rfl⟩ := List.mem_map.mp this
    exact Or.inr ⟨f, rfl⟩

theorem SameData.ready {a : App} {v u : World} (h : SameData v u) (hr : Ready a u) : Ready a v := by
  refine ⟨⟨?_, ?_⟩, ?_, ?_, ?_, ?_, ?_⟩
  · rw [h.parsers]; exact hr.sound.parsers
  · rw [h.parsers, h.consumers]; exact hr.sound.attached
  · unfold Tidy
    rw [h.station, h.parsers]; exact hr.tidy
  · rw [h.station]; exact hr.tx
  · rw [h.pf]; exact hr.pf
  · rw [h.consumers]; exact hr.list
  · rw [h.consumers]; exact hr.loco

theorem SameData.processing {v u : World} (h : SameData v u) : v.processing = u.processing := by
  unfold World.processing
  rw [h.station, h.parsers]

theorem SameData.last {v u : World} (h : SameData v u) {e : LogEntry} (he : isCall e = false) (hu : u.log.getLast? = some e) :
    lastTold v = some e := by
  unfold lastTold
  rw [h.told]
  obtain ⟨l, hl⟩ := List.getLast?_eq_some_iff.mp hu
  rw [hl, List.filter_append]
  simp [he]

/-- Answers come through control traffic. -/
theorem answered_same {a : App} {v u u' : World} (hr : Ready a v) (he : v.station.callbacks.engine.isSome = true) {ops : List Op}
    {fs : List CanFrame} (hf : ops.filter (fun o => !isControl o) = fs.map .handle) (h : v.run ops = .ok u) (h' : v.run (fs.map .handle) = .ok u') :
    SameData u u' := by
  obtain ⟨x, h1, h2⟩ := (C61_invisible ops v a.tx hr.tx he (fun op hop => ((heard_of_filter hf op hop).allowed v).2.2)).1 u' (by rw [hf]; exact h')
  rw [h] at h1
  cases h1
  exact h2

/-! ## One page, one engine -/

/-- C87, one page: however often the application has to ask, whatever comes instead of the answer and whatever else goes on, in the end
the table shows the names the master has from that position on, and all the rest is as after an undisturbed exchange (C81). -/
theorem C87_page (a : App) (db : List EngineRecord) (o : Byte) (w u : World) (hr : Ready a w) (he : w.station.callbacks.engine.isSome = true)
    (h : Busy a db (.page o) w u) :
    Ready a u ∧ u.station.callbacks.engine.isSome = true ∧ u.processing = false ∧ ∃ d, u.consumers a.list = .list d ∧
      Shows d (((db.map (·.name)).drop o.toNat).take 2) ∧ d.numEnginesKnownByMaster = some (BitVec.ofNat 8 db.length) ∧
      d.streamComplete = some true ∧ d.streamOffset = some o ∧ lastTold u = some (.streamEnd a.listEnd a.list true (.list d)) ∧
      (Pends a .list w → u.engines = w.engines) := by
  induction h with
  | @answered w v u ops first rest ask reply heard got =>
    obtain ⟨v', h1, -, h3⟩ := C81_page a db w hr o
    rw [show w.run (page a o) = .ok v from ask] at h1
    cases h1
    obtain ⟨u', d, g1, g2, g3, g4, g5, g6, g7, g8, g9, g10⟩ := h3 first rest reply
    obtain ⟨r1, r2, r3, r4⟩ := page_state hr he o ask
    have hs := answered_same r1 r2 heard got g1
    have hh := heard_run ops v u r1 r2 r3 (heard_of_filter heard) got
    exact ⟨hh.1, hh.2.1, by rw [hs.processing]; exact g9, d, by rw [hs.consumers]; exact g3, g4, g5, g6, g7, hs.last rfl g10,
      fun _ => by rw [hs.engines]; exact g8⟩
  | @again w v w' u ops ask heard got more ih =>
    obtain ⟨r1, r2, r3, r4⟩ := page_state hr he o ask
    obtain ⟨s1, s2, s3, s4⟩ := heard_run ops v w' r1 r2 r3 heard got
    obtain ⟨t1, t2, t3, d, t4, t5, t6, t7, t8, t9, t10⟩ := ih s1 s2
    exact ⟨t1, t2, t3, d, t4, t5, t6, t7, t8, t9, fun _ => (t10 s3).trans (r4.trans s4)⟩
  | @before w w' u ops heard got more ih =>
    obtain ⟨s1, s2, -, -⟩ := heard_run ops w w' hr he (Pends.any a w) heard got
    obtain ⟨t1, t2, t3, d, t4, t5, t6, t7, t8, t9, t10⟩ := ih s1 s2
    refine ⟨t1, t2, t3, d, t4, t5, t6, t7, t8, t9, fun hp => ?_⟩
    obtain ⟨-, -, s3, s4⟩ := heard_run ops w w' hr he hp heard got
    exact (t10 s3).trans s4

/-- The memory of a name that the table shows. -/
theorem slotName_shown {a : App} {w : World} (hr : Ready a w) {d : LocoListConsumer} (hd : w.consumers a.list = .list d) {ns : List (List Byte)}
    (hs : Shows d ns) {i : Nat} {n : List Byte} (hi : ns[i]? = some n) : Readable 32 (slotName a w i) ∧ text (slotName a w i) = n := by
  obtain ⟨l, hl, -, hl2, hl3⟩ := hr.list
  rw [hd] at hl
  cases hl
  have h1 : (d.engineInfo.map shown)[i]? = some (some n) := by
    rw [hs.2, List.getElem?_append_left (by
      have := (List.getElem?_eq_some_iff.mp hi).1
      simpa using this), List.getElem?_map, hi]
    rfl
  rw [List.getElem?_map] at h1
  cases hx : d.engineInfo[i]? with
  | none => rw [hx] at h1; cases h1
  | some x =>
    rw [hx] at h1
    have hx2 : shown x = some n := by injection h1
    have hslot : slotName a w i = x.name := by
      unfold slotName
      rw [hd]
      simp only [List.getD_eq_getElem?_getD, hx, Option.getD_some]
    have hx3 : x.name.length = 33 := hl3 x (List.mem_of_getElem? hx)
    rw [hslot]
    refine ⟨Or.inl (by omega), ?_⟩
    unfold shown at hx2
    split at hx2
    · cases hx2
    · injection hx2

/-- C87, one engine: the same for an engine that the table shows. Whatever comes instead of the answer, the table and all other engines
are untouched. -/
theorem C87_load (a : App) (db : List EngineRecord) (hnames : (db.map (·.name)).Nodup) (i e : Nat) (r : EngineRecord) (hmem : r ∈ db)
    (hlen : r.name.length ≤ 16) (w u : World) (hr : Ready a w) (he : w.station.callbacks.engine.isSome = true) (hp : Pends a (.engine e) w)
    (d : LocoListConsumer) (hd : w.consumers a.list = .list d) (ns : List (List Byte)) (hs : Shows d ns) (hi : ns[i]? = some r.name)
    (h : Busy a db (.load i e) w u) :
    Ready a u ∧ u.station.callbacks.engine.isSome = true ∧ u.processing = false ∧ u.consumers a.list = .list d ∧ Mirrors (u.engines e) r ∧
      (∀ x, x ≠ e → u.engines x = w.engines x) ∧ lastTold u = some (.streamEnd a.locoEnd a.loco true (.engine (u.engines e))) := by
  induction h with
  | @answered w v u ops first rest ask reply heard got =>
    obtain ⟨m1, m2⟩ := slotName_shown hr hd hs hi
    obtain ⟨v', h1, -, h3⟩ := C82_load a db hnames w hr e r hmem hlen (slotName a w i) m1 m2
    rw [show w.run (load a e (slotName a w i)) = .ok v from ask] at h1
    cases h1
    obtain ⟨u', g1, g2, g3, g4, -, -, g7, g8⟩ := h3 first rest reply
    obtain ⟨r1, r2, r3, r4⟩ := load_state hr he e hp _ m1 (by rw [m2]; exact hlen) ask
    have hsame := answered_same r1 r2 heard got g1
    have hh := heard_run ops v u r1 r2 r3 (heard_of_filter heard) got
    refine ⟨hh.1, hh.2.1, by rw [hsame.processing]; exact g7, ?_, by rw [hsame.engines]; exact g3, by rw [hsame.engines]; exact g4, ?_⟩
    · rw [hh.2.2.2.2, r4.2, hd]
    · rw [hsame.engines]
      exact hsame.last rfl g8
  | @again w v w' u ops ask heard got more ih =>
    obtain ⟨m1, m2⟩ := slotName_shown hr hd hs hi
    obtain ⟨r1, r2, r3, r4⟩ := load_state hr he e hp _ m1 (by rw [m2]; exact hlen) ask
    obtain ⟨s1, s2, s3, s4⟩ := heard_run ops v w' r1 r2 r3 heard got
    obtain ⟨t1, t2, t3, t4, t5, t6, t7⟩ := ih s1 s2 s3 (by rw [s4.2, r4.2, hd])
    exact ⟨t1, t2, t3, t4, t5, fun x hx => (t6 x hx).trans ((s4.1 x hx).trans (r4.1 x hx)), t7⟩
  | @before w w' u ops heard got more ih =>
    obtain ⟨s1, s2, s3, s4⟩ := heard_run ops w w' hr he hp heard got
    obtain ⟨t1, t2, t3, t4, t5, t6, t7⟩ := ih s1 s2 s3 (by rw [s4.2, hd])
    exact ⟨t1, t2, t3, t4, t5, fun x hx => (t6 x hx).trans (s4.1 x hx), t7⟩

/-! ## Sessions -/

/-- C87, the list: an application that goes through the list page by page on a busy bus is shown all names, each once and in order. -/
theorem C87_browse (a : App) (db : List EngineRecord) (n : Nat) (w : World) (hr : Ready a w) (he : w.station.callbacks.engine.isSome = true)
    (first : Nat) (hb : first + 2 * n ≤ 257) (us : List World)
    (hs : BusySession a db w ((List.range n).map (fun i => .page (BitVec.ofNat 8 (first + 2 * i)))) us) :
    us.flatMap (tableOf a) = ((db.map (·.name)).drop first).take (2 * n) ∧
      ∀ u ∈ us, ∃ d, u.consumers a.list = .list d ∧ d.numEnginesKnownByMaster = some (BitVec.ofNat 8 db.length) ∧
        d.streamComplete = some true := by
  induction n generalizing w first us with
  | zero =>
    cases hs
    simp
  | succ n ih =>
    rw [List.range_succ_eq_map, List.map_cons, List.map_map] at hs
    cases hs with
    | cons h more =>
      rename_i u us
      obtain ⟨t1, t2, t3, d, t4, t5, t6, t7, -⟩ := C87_page a db _ w u hr he h
      have e : (fun i => Next.page (BitVec.ofNat 8 (first + 2 * i))) ∘ Nat.succ = fun i => .page (BitVec.ofNat 8 (first + 2 + 2 * i)) := by
        funext i
        show Next.page (BitVec.ofNat 8 (first + 2 * (i + 1))) = _
        congr 2
        omega
      rw [e] at more
      obtain ⟨m1, m2⟩ := ih u t1 t2 (first + 2) (by omega) us more
      have ht : tableOf a u = ((db.map (·.name)).drop first).take 2 := by
        unfold tableOf
        rw [t4]
        simp only
        rw [shows_filter t5, Nat.mul_zero, Nat.add_zero, BitVec.toNat_ofNat, Nat.mod_eq_of_lt (by omega)]
      refine ⟨?_, ?_⟩
      · rw [List.flatMap_cons, ht, m1, show 2 * (n + 1) = 2 + 2 * n by omega, List.take_add, List.drop_drop]
      · intro x hx
        rcases List.mem_cons.mp hx with rfl | hx
        · exact ⟨d, t4, t6, t7⟩
        · exact m2 x hx

theorem busySession_append {a : App} {db : List EngineRecord} {xs ys : List Next} {w : World} {us : List World}
    (h : BusySession a db w (xs ++ ys) us) :
    ∃ as bs, us = as ++ bs ∧ BusySession a db w xs as ∧ BusySession a db (as.getLastD w) ys bs := by
  induction xs generalizing w us with
  | nil => exact ⟨[], us, rfl, .nil w, h⟩
  | cons x xs ih =>
    cases h with
    | cons h more =>
      rename_i u us
      obtain ⟨as, bs, rfl, h1, h2⟩ := ih more
      exact ⟨u :: as, bs, rfl, .cons h h1, by rw [List.getLastD_cons]; exact h2⟩

theorem busySession_one {a : App} {db : List EngineRecord} {x : Next} {w : World} {us : List World} (h : BusySession a db w [x] us) :
    ∃ u, us = [u] ∧ Busy a db x w u := by
  cases h with
  | cons h more =>
    cases more
    exact ⟨_, rfl, h⟩

theorem busy_invariant (a : App) (db : List EngineRecord) (hnames : (db.map (·.name)).Nodup) (hlen : ∀ r ∈ db, r.name.length ≤ 16)
    (w : World) (hr : Ready a w) (he : w.station.callbacks.engine.isSome = true) (hp : w.processing = false) (n : Nat) (hn : n ≤ db.length)
    (hn' : n ≤ 256) (us : List World) (hs : BusySession a db w (mirrorSteps n) us) :
    Ready a (us.getLastD w) ∧ (us.getLastD w).station.callbacks.engine.isSome = true ∧ (us.getLastD w).processing = false ∧
      (∀ i, (h : i < n) → Mirrors ((us.getLastD w).engines i) (db[i]'(by omega))) ∧
      (∀ i, n ≤ i → (us.getLastD w).engines i = w.engines i) ∧
      (n % 2 = 1 → ∃ d, (us.getLastD w).consumers a.list = .list d ∧ Shows d (((db.map (·.name)).drop (n - 1)).take 2)) := by
  induction n generalizing us with
  | zero =>
    cases hs
    exact ⟨hr, he, hp, fun i h => by omega, fun _ _ => rfl, fun h => by omega⟩
  | succ n ih =>
    unfold mirrorSteps at hs
    rw [List.range_succ, List.flatMap_append] at hs
    obtain ⟨us1, us2, rfl, h1, h2⟩ := busySession_append hs
    obtain ⟨i1, ie, ip, i2, i3, i4⟩ := ih (by omega) (by omega) us1 h1
    generalize us1.getLastD w = x at i1 ie ip i2 i3 i4 h2
    have hmem : db[n]'(by omega) ∈ db := List.getElem_mem _
    simp only [List.flatMap_cons, List.flatMap_nil, List.append_nil] at h2
    split at h2
    · obtain ⟨as, bs, rfl, h3, h4⟩ := busySession_append (xs := [.page (BitVec.ofNat 8 n)]) (ys := [.load 0 n]) h2
      obtain ⟨y, rfl, h5⟩ := busySession_one h3
      obtain ⟨u, rfl, h6⟩ := busySession_one h4
      obtain ⟨p1, pe, pp, d, p2, p3, -, -, -, -, p4⟩ := C87_page a db (BitVec.ofNat 8 n) x y i1 ie h5
      have p4 := p4 (Pends.idle ip)
      rw [BitVec.toNat_ofNat, Nat.mod_eq_of_lt (by omega)] at p3
      obtain ⟨q1, qe, qp, q2, q3, q4, -⟩ := C87_load a db hnames 0 n _ hmem (hlen _ hmem) y u p1 pe (Pends.idle pp) d p2 _ p3 (by
        rw [List.getElem?_take_of_lt (by omega), List.getElem?_drop, List.getElem?_map]
        simp [List.getElem?_eq_getElem (show n < db.length by omega)]) h6
      have hu : (us1 ++ ([y] ++ [u])).getLastD w = u := by simp
      rw [hu]
      refine ⟨q1, qe, qp, fun i hi => ?_, fun i hi => ?_, fun _ => ⟨d, q2, by simpa using p3⟩⟩
      · by_cases hin : i = n
        · subst hin; exact q3
        · rw [q4 i hin, p4]
          exact i2 i (by omega)
      · rw [q4 i (by omega), p4, i3 i (by omega)]
    · obtain ⟨d, j2, j3⟩ := i4 (by omega)
      obtain ⟨u, rfl, h4⟩ := busySession_one h2
      obtain ⟨q1, qe, qp, q2, q3, q4, -⟩ := C87_load a db hnames 1 n _ hmem (hlen _ hmem) x u i1 ie (Pends.idle ip) d j2 _ j3 (by
        rw [List.getElem?_take_of_lt (by omega), List.getElem?_drop, List.getElem?_map, show n - 1 + 1 = n by omega]
        simp [List.getElem?_eq_getElem (show n < db.length by omega)]) h4
      have hu : (us1 ++ [u]).getLastD w = u := by simp
      rw [hu]
      refine ⟨q1, qe, qp, fun i hi => ?_, fun i hi => ?_, fun h => by omega⟩
      · by_cases hin : i = n
        · subst hin; exact q3
        · rw [q4 i hin]
          exact i2 i (by omega)
      · rw [q4 i (by omega), i3 i (by omega)]

/-- C87, the engines: after a session on a busy bus in which the application went through all engines of a master and loaded each, asking
again whenever an answer was lost, the engine objects hold the database of the master, and all other engine objects are as they were. -/
theorem C87_mirror (a : App) (db : List EngineRecord) (hnames : (db.map (·.name)).Nodup) (hlen : ∀ r ∈ db, r.name.length ≤ 16)
    (hdb : db.length ≤ 255) (w : World) (hr : Ready a w) (he : w.station.callbacks.engine.isSome = true) (hp : w.processing = false)
    (us : List World) (hs : BusySession a db w (mirrorSteps db.length) us) :
    (∀ i, (h : i < db.length) → Mirrors ((us.getLastD w).engines i) db[i]) ∧
      ∀ i, db.length ≤ i → (us.getLastD w).engines i = w.engines i :=
  have h := busy_invariant a db hnames hlen w hr he hp db.length (Nat.le_refl _) (by omega) us hs
  ⟨h.2.2.2.1, h.2.2.2.2.1⟩

/-! ## Such exchanges happen -/

theorem reply_filter {db : List EngineRecord} {fs : List CanFrame} {first : CanFrame} {rest : List CanFrame} (h : Replies db fs first rest) :
    ((first :: rest).map Op.handle).filter (fun o => !isControl o) = (first :: rest).map .handle := by
  obtain ⟨q, items, tail, -, hw, -⟩ := h
  rw [List.filter_eq_self]
  intro op hop
  obtain ⟨f, hf, rfl⟩ := List.mem_map.mp hop
  simp [isControl, hw.command f hf]

/-- An undisturbed exchange is one on a busy bus. -/
theorem busy_of_exchange {a : App} {db : List EngineRecord} {x : Next} {w u : World} (h : Exchange db w (x.ops a w) u) : Busy a db x w u := by
  obtain ⟨v, first, rest, h1, h2, h3⟩ := h
  exact .answered h1 h2 (reply_filter h2) h3

/-- And so is an undisturbed session. -/
theorem busy_of_session {a : App} {db : List EngineRecord} {xs : List Next} {w : World} {us : List World} (h : Session a db w xs us) :
    BusySession a db w xs us := by
  induction h with
  | nil w => exact .nil w
  | cons h _ ih => exact .cons (busy_of_exchange h) ih

/-- In every state and with every master the following can happen: the application asks for a page, other traffic goes on, only the first
frame of the answer comes, the application asks again, other traffic goes on, and the answer comes. -/
theorem C87_possible (a : App) (db : List EngineRecord) (hdb : db.length ≤ 255) (hv : ∀ r ∈ db, r.Valid) (w : World) (hr : Ready a w)
    (he : w.station.callbacks.engine.isSome = true) (o : Byte) (t : List Op) (ht : ∀ op ∈ t, isControl op = true) :
    ∃ v first rest w' v' first' rest' u, w.run (page a o) = .ok v ∧ Replies db (sentSince w v) first rest ∧
      v.run (t ++ [.handle first]) = .ok w' ∧ w'.run (page a o) = .ok v' ∧ Replies db (sentSince w' v') first' rest' ∧
      v'.run (t ++ (first' :: rest').map .handle) = .ok u ∧ Busy a db (.page o) w u := by
  have hts : ∀ fs : List CanFrame, (∀ f ∈ fs, commandOf f = 0x21) → (t ++ fs.map Op.handle).filter (fun o => !isControl o) = fs.map .handle := by
    intro fs hfs
    rw [List.filter_append, List.filter_eq_nil_iff.mpr (by intro op hop; simp [ht op hop]), List.nil_append, List.filter_eq_self]
    intro op hop
    obtain ⟨f, hf, rfl⟩ := List.mem_map.mp hop
    simp [isControl, hfs f hf]
  obtain ⟨v, h1, h2, h3⟩ := C81_page a db w hr o
  obtain ⟨first, rest, h4⟩ := reply_exists db hdb hv _ _ h2 (Or.inl ⟨_, rfl⟩)
  obtain ⟨u, d, h5, -⟩ := h3 first rest h4
  rw [List.map_cons, World.run_cons] at h5
  obtain ⟨x, h6, -⟩ := bind_ok h5
  obtain ⟨r1, r2, r3, -⟩ := page_state hr he o h1
  have hcmd : ∀ f ∈ first :: rest, commandOf f = 0x21 := by obtain ⟨_, _, _, -, hw, -⟩ := h4; exact hw.command
  have hf := hts [first] (by intro f hf; rw [List.mem_singleton.mp hf]; exact hcmd _ (List.mem_cons_self ..))
  have heard := heard_of_filter hf
  obtain ⟨w', h7, -⟩ := (C61_invisible _ v a.tx r1.tx r2 (fun op hop => ((heard op hop).allowed v).2.2)).1 x (by
    rw [hf]
    show v.run [.handle first] = _
    rw [World.run_cons, h6]
    rfl)
  obtain ⟨s1, s2, -, -⟩ := heard_run _ v w' r1 r2 r3 heard h7
  obtain ⟨v', k1, k2, k3⟩ := C81_page a db w' s1 o
  obtain ⟨first', rest', k4⟩ := reply_exists db hdb hv _ _ k2 (Or.inl ⟨_, rfl⟩)
  obtain ⟨y, d, k5, -⟩ := k3 first' rest' k4
  obtain ⟨t1, t2, -, -⟩ := page_state s1 s2 o k1
  have hf' := hts (first' :: rest') (by obtain ⟨_, _, _, -, hw, -⟩ := k4; exact hw.command)
  have heard' := heard_of_filter hf'
  obtain ⟨u, k6, -⟩ := (C61_invisible _ v' a.tx t1.tx t2 (fun op hop => ((heard' op hop).allowed v').2.2)).1 y (by rw [hf']; exact k5)
  exact ⟨v, first, rest, w', v', first', rest', u, h1, h4, h7, k1, k4, k6, .again h1 heard h7 (.answered k1 k4 hf' k6)⟩

/-- The objects of an application after start-up, with an engine callback. -/
theorem ready_busy : ∃ w, Ready ⟨0, 7, 9, 8, 10, 5⟩ w ∧ w.station.callbacks.engine.isSome = true ∧ w.processing = false := by
  let l : LocoListConsumer := { LocoListConsumer.construct with streamEndCallback := .obj 9 }
  let cs : Nat → Consumer := fun c => if c = 7 then .list l else .loco ⟨.null, .obj 10⟩
  let es : Engines := fun _ => Locomotive.construct []
  obtain ⟨w, hw⟩ : ∃ w, (World.new ⟨32⟩ cs es).run [.begin_ 1#16 { tx := some 5, engine := some 6 }] = .ok w := ⟨_, rfl⟩
  have h1 := tidy_history [.begin_ 1#16 { tx := some 5, engine := some 6 }] _ _ (tidy_new ⟨32⟩ cs es) (C58_start ⟨32⟩ cs es)
    ⟨trivial, fun _ _ => trivial⟩ (by decide) hw
  cases hw
  refine ⟨_, ⟨h1.2, h1.1, rfl, Nat.le_refl 32, ⟨l, rfl, rfl, rfl, ?_⟩, ⟨⟨.null, .obj 10⟩, rfl, rfl⟩⟩, rfl, rfl⟩
  intro i hi
  rw [List.eq_of_mem_replicate hi]
  rfl

/-- C87: the master of C82 on a busy bus, with a lost answer; a stop command is received while the application waits. -/
example : ∃ (w u : World) (d : LocoListConsumer), Busy ⟨0, 7, 9, 8, 10, 5⟩ caseMaster (.page 2#8) w u ∧
    u.consumers 7 = .list d ∧ Shows d [str "ET 515 Limburger"] := by
  obtain ⟨w, hr, he, -⟩ := ready_busy
  obtain ⟨v, first, rest, w', v', first', rest', u, -, -, -, -, -, -, h⟩ := C87_possible _ caseMaster (by decide) caseMaster_valid w hr he 2#8
    [.handle ⟨⟨0#32⟩, { dlc := 5#8 }⟩, .sendGo] (by decide)
  obtain ⟨-, -, -, d, h1, h2, -⟩ := C87_page _ caseMaster 2#8 w u hr he h
  exact ⟨w, u, d, h, h1, h2⟩

/-- C87: a session that loads all engines of this master. -/
example : ∃ (w : World) (us : List World), BusySession ⟨0, 7, 9, 8, 10, 5⟩ caseMaster w (mirrorSteps 3) us ∧
    text ((us.getLastD w).engines 2).info.name = str "ET 515 Limburger" := by
  obtain ⟨w, hr, he, hp⟩ := ready_busy
  have hn : (caseMaster.map (·.name)).Nodup := by decide +kernel
  obtain ⟨us, h⟩ := C82_possible _ caseMaster hn (by decide) caseMaster_valid w hr 3 (by decide)
  have hm := (C87_mirror _ caseMaster hn (fun r hr => (caseMaster_valid r hr).nameLength) (by decide) w hr he hp us (busy_of_session h)).1
  exact ⟨w, us, busy_of_session h, (hm 2 (by decide)).name⟩

end RR32
