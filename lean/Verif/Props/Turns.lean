import Verif.Props.Busy
import Verif.Props.Bus

/-! # C91: several stations and one master on a bus -/

set_option autoImplicit false

namespace RR32

open Spec

/-! ## Turns -/

/-- A step that asks for nothing: receiving, a device that sends any frame, or a command at one of the stations. -/
def Harmless : BusOp → Prop
  | .call _ op => isControl op = true
  | .receive _ => True
  | .foreign _ => True

/-- The frames of configuration data among those that others than station `i` put on the bus. -/
def streamsFor (i : Nat) (l : List (Option Nat × CanFrame)) : List CanFrame :=
  ((l.filter (fun x => x.1 ≠ some i)).map (·.2)).filter (fun f => !isControl (.handle f))

/-- A turn of station `i`: it has received everything, asks, and the answer is the only stream until it has received everything again.
Everything else may happen meanwhile. -/
structure Turn (a : App) (db : List EngineRecord) (i : Nat) (x : Next) (b b' : Bus) : Prop where
  upToDate : UpToDate b i
  exchange : ∃ b1 ops first rest, b.run ((x.ops a (b.nodes i)).map (.call i)) = .ok b1 ∧
    Replies db ((b1.wire.drop b.wire.length).map (·.2)) first rest ∧ (∀ o ∈ ops, Harmless o) ∧ b1.run ops = .ok b' ∧
    streamsFor i (b'.wire.drop b1.wire.length) = first :: rest
  caughtUp : UpToDate b' i

/-- A history in which the stations take turns, with anything harmless in between. -/
inductive Turns (apps : Nat → App) (db : List EngineRecord) : Bus → List (Nat × Next) → Bus → Prop where
  | done (b : Bus) : Turns apps db b [] b
  | between {b c b' : Bus} {xs : List (Nat × Next)} (o : BusOp) (ho : Harmless o) (h : b.step o = .ok c) (more : Turns apps db c xs b') :
      Turns apps db b xs b'
  | turn {b c b' : Bus} {i : Nat} {x : Next} {xs : List (Nat × Next)} (h : Turn (apps i) db i x b c) (more : Turns apps db c xs b') :
      Turns apps db b ((i, x) :: xs) b'

/-! ## What a node takes part in -/

/-- What node `j` has taken from the bus. -/
def takenBy (b : Bus) (j : Nat) : List Op := ((b.wire.take (b.pos j)).filter (fun x => x.1 ≠ some j)).map (fun x => .handle x.2)

theorem harmless_step {b b' : Bus} {o : BusOp} (j : Nat) (ho : ∀ op, o = .call j op → isControl op = true) (h : b.step o = .ok b') (hp : b.pos j ≤ b.wire.length) :
    b'.pos j ≤ b'.wire.length ∧ (∃ new, b'.wire = b.wire ++ new) ∧
      ∃ l : List Op, (b.nodes j).run l = .ok (b'.nodes j) ∧ (∀ op ∈ l, Heard op) ∧
        (takenBy b' j).filter (fun o => !isControl o) = (takenBy b j).filter (fun o => !isControl o) ++ l.filter (fun o => !isControl o) := by
  cases o with
  | foreign f =>
    cases h
    refine ⟨by simp; omega, ⟨_, rfl⟩, [], rfl, by simp, ?_⟩
    unfold takenBy
    simp only [List.filter_nil, List.append_nil, List.take_append_of_le_length hp]
  | call i op =>
    obtain ⟨w, h1, h2⟩ := bind_ok h
    cases h2
    refine ⟨by simp only [Bus.setNode, List.length_append]; omega, ⟨_, rfl⟩, ?_⟩
    have ht : (takenBy { b.setNode i w with wire := b.wire ++ (Bus.sent (w.log.drop (b.nodes i).log.length)).map (fun f => (some i, f)) } j) =
        takenBy b j := by
      unfold takenBy
      simp only [Bus.setNode, List.take_append_of_le_length hp]
    rw [ht]
    by_cases hij : j = i
    · subst hij
      refine ⟨[op], ?_, ?_, ?_⟩
      · simp only [Bus.setNode, if_true]
        rw [World.run_cons, h1]
        rfl
      · intro o ho'
        rw [List.mem_singleton.mp ho']
        exact Or.inl (ho op rfl)
      · have : isControl op = true := ho op rfl
        simp [this]
    · exact ⟨[], by simp only [Bus.setNode, if_neg hij]; rfl, by simp, by simp⟩
  | receive i =>
    simp only [Bus.step] at h
    split at h
    · cases h
      exact ⟨hp, ⟨[], by simp⟩, [], rfl, by simp, by simp⟩
    · next s f hw =>
      obtain ⟨hlt, hget⟩ := List.getElem?_eq_some_iff.mp hw
      have htake : b.wire.take (b.pos i + 1) = b.wire.take (b.pos i) ++ [(s, f)] := take_next hw
      split at h
      · next hs =>
        cases h
        refine ⟨?_, ⟨[], by simp [Bus.advance]⟩, [], rfl, by simp, ?_⟩
        · simp only [Bus.advance]; split <;> simp_all
        · unfold takenBy
          by_cases hij : j = i
          · subst hij
            simp only [Bus.advance, if_true, htake, List.filter_append]
            simp [hs]
          · simp only [Bus.advance, if_neg hij]
            simp
      · next hs =>
        obtain ⟨w, h1, h⟩ := bind_ok h
        cases h
        by_cases hij : j = i
        · subst hij
          refine ⟨by simp only [Bus.advance, Bus.setNode, if_true]; omega, ⟨[], by simp [Bus.advance, Bus.setNode]⟩, [.handle f], ?_, ?_, ?_⟩
          · simp only [Bus.advance, Bus.setNode, if_true]
            rw [World.run_cons, h1]
            rfl
          · intro o ho'
            rw [List.mem_singleton.mp ho']
            exact Or.inr ⟨f, rfl⟩
          · unfold takenBy
            simp only [Bus.advance, Bus.setNode, if_true, htake, List.filter_append, List.map_append]
            simp [hs]
        · refine ⟨by simp only [Bus.advance, Bus.setNode, if_neg hij]; exact hp, ⟨[], by simp [Bus.advance, Bus.setNode]⟩, [], ?_, by simp, ?_⟩
          · simp only [Bus.advance, Bus.setNode, if_neg hij]; rfl
          · unfold takenBy
            simp only [Bus.advance, Bus.setNode, if_neg hij]
            simp

theorem Harmless.controls {o : BusOp} (ho : Harmless o) (j : Nat) (op : Op) (h : o = .call j op) : isControl op = true := by
  subst h
  exact ho

theorem harmless_run {ops : List BusOp} {b b' : Bus} (j : Nat) (ho : ∀ op, BusOp.call j op ∈ ops → isControl op = true) (h : b.run ops = .ok b') (hp : b.pos j ≤ b.wire.length) :
    b'.pos j ≤ b'.wire.length ∧ (∃ new, b'.wire = b.wire ++ new) ∧
      ∃ l : List Op, (b.nodes j).run l = .ok (b'.nodes j) ∧ (∀ op ∈ l, Heard op) ∧
        (takenBy b' j).filter (fun o => !isControl o) = (takenBy b j).filter (fun o => !isControl o) ++ l.filter (fun o => !isControl o) := by
  induction ops generalizing b with
  | nil => cases h; exact ⟨hp, ⟨[], by simp⟩, [], rfl, by simp, by simp⟩
  | cons o ops ih =>
    obtain ⟨c, h1, h2⟩ := bind_ok (show (b.step o >>= fun c => c.run ops) = .ok b' from h)
    obtain ⟨p1, ⟨n1, w1⟩, l1, r1, e1, t1⟩ := harmless_step j (fun op e => ho op (e ▸ List.mem_cons_self ..)) h1 hp
    obtain ⟨p2, ⟨n2, w2⟩, l2, r2, e2, t2⟩ := ih (fun x hx => ho x (List.mem_cons_of_mem _ hx)) h2 p1
    refine ⟨p2, ⟨n1 ++ n2, by rw [w2, w1, List.append_assoc]⟩, l1 ++ l2, ?_, ?_, ?_⟩
    · rw [World.run_append, r1]; exact r2
    · intro op hop
      rcases List.mem_append.mp hop with hop | hop
      · exact e1 op hop
      · exact e2 op hop
    · rw [t2, t1, List.filter_append, List.append_assoc]

/-- The calls of one program. -/
theorem calls_run {ops : List Op} {b b' : Bus} {i : Nat} (h : b.run (ops.map (.call i)) = .ok b') :
    (b.nodes i).run ops = .ok (b'.nodes i) ∧ b'.pos = b.pos ∧ (∀ j, j ≠ i → b'.nodes j = b.nodes j) ∧
      ∃ lg, (b'.nodes i).log = (b.nodes i).log ++ lg ∧ b'.wire = b.wire ++ (Bus.sent lg).map (fun f => (some i, f)) := by
  induction ops generalizing b with
  | nil => cases h; exact ⟨rfl, rfl, fun _ _ => rfl, [], by simp, by simp [Bus.sent]⟩
  | cons o ops ih =>
    obtain ⟨c, h1, h2⟩ := bind_ok (show (b.step (.call i o) >>= fun c => c.run (ops.map (.call i))) = .ok b' from h)
    obtain ⟨w, h3, h4⟩ := bind_ok h1
    obtain ⟨k1, k2, k3, lg, k4, k5⟩ := ih h2
    obtain ⟨l1, g1, -⟩ := step_atMost _ _ _ h3
    cases h4
    simp only [Bus.setNode, if_true, g1, List.drop_left] at k1 k2 k3 k4 k5
    refine ⟨?_, k2, ?_, l1 ++ lg, by rw [k4, List.append_assoc], ?_⟩
    · rw [World.run_cons, h3]; exact k1
    · intro j hj
      rw [k3 j hj, if_neg hj]
    · rw [k5, sent_append, List.map_append, List.append_assoc]

theorem taken_all {b : Bus} {i : Nat} (hu : UpToDate b i) :
    takenBy b i = (b.wire.filter (fun x => x.1 ≠ some i)).map (fun x => .handle x.2) := by
  unfold takenBy
  conv => rhs; rw [← List.take_append_drop (b.pos i) b.wire, List.filter_append]
  have : (b.wire.drop (b.pos i)).filter (fun x => x.1 ≠ some i) = [] := by
    rw [List.filter_eq_nil_iff]
    intro x hx
    simp [hu x hx]
  rw [this, List.append_nil]

theorem handles_filter (l : List CanFrame) :
    (l.map Op.handle).filter (fun o => !isControl o) = (l.filter (fun f => !isControl (.handle f))).map .handle := by
  rw [List.filter_map]
  rfl

/-- A turn, as the station sees it. -/
theorem Turn.busy {a : App} {db : List EngineRecord} {i : Nat} {x : Next} {b b' : Bus} (h : Turn a db i x b b') (hp : b.pos i ≤ b.wire.length) :
    Busy a db x (b.nodes i) (b'.nodes i) := by
  obtain ⟨b1, ops, first, rest, h1, h2, h3, h4, h5⟩ := h.exchange
  obtain ⟨k1, k2, k3, lg, k4, k5⟩ := calls_run h1
  have hp1 : b1.pos i ≤ b1.wire.length := by rw [k2, k5, List.length_append]; omega
  obtain ⟨p2, ⟨new, w2⟩, l, r2, e2, t2⟩ := harmless_run i (fun op hop => h3 _ hop) h4 hp1
  have hs : sentSince (b.nodes i) (b1.nodes i) = (b1.wire.drop b.wire.length).map (·.2) := by
    unfold sentSince
    rw [k4, k5, List.drop_left, List.drop_left, List.map_map]
    show _ = List.map id (Bus.sent lg)
    rw [List.map_id]
    rfl
  have hown : ((Bus.sent lg).map (fun f => (some i, f))).filter (fun x => x.1 ≠ some i) = [] := by
    rw [List.filter_eq_nil_iff]
    intro y hy
    obtain ⟨f, -, rfl⟩ := List.mem_map.mp hy
    simp
  have hu1 : UpToDate b1 i := by
    intro y hy
    rw [k2, k5, List.drop_append_of_le_length hp] at hy
    rcases List.mem_append.mp hy with hy | hy
    · exact h.upToDate y hy
    · obtain ⟨f, -, rfl⟩ := List.mem_map.mp hy
      rfl
  refine .answered k1 (by rw [hs]; exact h2) (?_ : l.filter _ = _) r2
  rw [taken_all hu1, taken_all h.caughtUp, w2, List.filter_append, List.map_append, List.filter_append] at t2
  have t3 := List.append_cancel_left t2
  rw [← t3, ← h5, streamsFor, w2, List.drop_left, ← handles_filter, List.map_map]
  rfl

/-- A station that waits for nothing. -/
theorem idle_run {w v : World} {l : List Op} (cb : Nat) (htx : w.station.callbacks.tx = some cb) (he : w.station.callbacks.engine.isSome = true)
    (hp : w.processing = false) (hl : ∀ op ∈ l, Heard op) (h : w.run l = .ok v) : SameData v w := by
  induction l generalizing w with
  | nil => cases h; exact .refl _
  | cons op l ih =>
    rw [World.run_cons] at h
    obtain ⟨u, h1, h2⟩ := bind_ok h
    rcases heard_cases cb htx he (hl op (List.mem_cons_self ..)) h1 with ⟨cs, rfl⟩ | ⟨n, d, g1, g2, -⟩
    · have hs : SameData (w.logAll (cs.map .call)) w := by
        have := World.before_same { w with log := [] } w.log cs
        simpa only [World.before, World.logAll, List.append_nil] using this
      exact (ih (w := w.logAll (cs.map .call)) htx he hp (fun o ho => hl o (List.mem_cons_of_mem _ ho)) h2).trans hs
    · simp only [World.processing, g1] at hp
      rw [hp] at g2
      cases g2

theorem Turn.others {a : App} {db : List EngineRecord} {i : Nat} {x : Next} {b b' : Bus} (h : Turn a db i x b b') {j : Nat} (hj : j ≠ i)
    (hp : b.pos j ≤ b.wire.length) : ∃ l : List Op, (∀ op ∈ l, Heard op) ∧ (b.nodes j).run l = .ok (b'.nodes j) := by
  obtain ⟨b1, ops, first, rest, h1, -, h3, h4, -⟩ := h.exchange
  obtain ⟨-, k2, k3, lg, -, k5⟩ := calls_run h1
  obtain ⟨-, -, l, r2, e2, -⟩ := harmless_run j (fun op hop => h3 _ hop) h4 (by rw [k2, k5, List.length_append]; omega)
  exact ⟨l, e2, by rw [← k3 j hj]; exact r2⟩

theorem Turn.pos {a : App} {db : List EngineRecord} {i : Nat} {x : Next} {b b' : Bus} (h : Turn a db i x b b') (j : Nat)
    (hp : b.pos j ≤ b.wire.length) : b'.pos j ≤ b'.wire.length := by
  obtain ⟨b1, ops, first, rest, h1, -, h3, h4, -⟩ := h.exchange
  obtain ⟨-, k2, -, lg, -, k5⟩ := calls_run h1
  exact (harmless_run j (fun op hop => h3 _ hop) h4 (by rw [k2, k5, List.length_append]; omega)).1

/-- Noise before a session. -/
theorem noise_session {a : App} {db : List EngineRecord} {w v z : World} {xs : List Next} {l1 : List Op} (h1 : ∀ op ∈ l1, Heard op)
    (r1 : w.run l1 = .ok v)
    (h : ∃ us l, BusySession a db v xs us ∧ (∀ op ∈ l, Heard op) ∧ (us.getLastD v).run l = .ok z) :
    ∃ us l, BusySession a db w xs us ∧ (∀ op ∈ l, Heard op) ∧ (us.getLastD w).run l = .ok z := by
  obtain ⟨us, l, hs, hl, hz⟩ := h
  cases hs with
  | nil =>
    refine ⟨[], l1 ++ l, .nil w, ?_, ?_⟩
    · intro op hop
      rcases List.mem_append.mp hop with hop | hop
      · exact h1 op hop
      · exact hl op hop
    · show w.run (l1 ++ l) = _
      rw [World.run_append, r1]
      exact hz
  | cons hb more => exact ⟨_, l, .cons (.before h1 r1 hb) more, hl, by simpa only [List.getLastD_cons] using hz⟩

/-- C91, for stations that take turns: what happens at each of them is a session on a busy bus (C87), with the questions of its own turns,
and perhaps more traffic after it; whatever the others ask and are answered is no more than traffic. -/
theorem C91_turns_partial {apps : Nat → App} {db : List EngineRecord} {b b' : Bus} {xs : List (Nat × Next)} (h : Turns apps db b xs b') (j : Nat)
    (hp : b.pos j ≤ b.wire.length) :
    ∃ us l, BusySession (apps j) db (b.nodes j) ((xs.filter (fun x => x.1 = j)).map (·.2)) us ∧ (∀ op ∈ l, Heard op) ∧
      (us.getLastD (b.nodes j)).run l = .ok (b'.nodes j) := by
  induction h with
  | done b => exact ⟨[], [], .nil _, by simp, rfl⟩
  | between o ho h more ih =>
    obtain ⟨p1, -, l, r1, e1, -⟩ := harmless_step j (ho.controls j) h hp
    exact noise_session e1 r1 (ih p1)
  | @turn b c b' i x xs h more ih =>
    have p1 := h.pos j hp
    by_cases hj : j = i
    · subst hj
      obtain ⟨us, l, hs, hl, hz⟩ := ih p1
      refine ⟨c.nodes j :: us, l, ?_, hl, by rw [List.getLastD_cons]; exact hz⟩
      simp only [List.filter_cons, decide_true, if_true, List.map_cons]
      exact .cons (h.busy hp) hs
    · obtain ⟨l, e1, r1⟩ := h.others hj hp
      have := noise_session e1 r1 (ih p1)
      simpa [List.filter_cons, show ¬(i = j) from fun e => hj e.symm] using this

/-- C91: any number of stations that take turns, and each load all engines in their turns, all hold the database of the master in the end. -/
theorem C91_mirror_partial {apps : Nat → App} {db : List EngineRecord} (hnames : (db.map (·.name)).Nodup) (hlen : ∀ r ∈ db, r.name.length ≤ 16)
    (hdb : db.length ≤ 255) {b b' : Bus} {xs : List (Nat × Next)} (h : Turns apps db b xs b') (j : Nat) (hp : b.pos j ≤ b.wire.length)
    (hr : Ready (apps j) (b.nodes j)) (he : (b.nodes j).station.callbacks.engine.isSome = true) (hi : (b.nodes j).processing = false)
    (hx : (xs.filter (fun x => x.1 = j)).map (·.2) = mirrorSteps db.length) :
    (∀ i, (h : i < db.length) → Mirrors ((b'.nodes j).engines i) db[i]) ∧
      ∀ i, db.length ≤ i → (b'.nodes j).engines i = (b.nodes j).engines i := by
  obtain ⟨us, l, hs, hl, hz⟩ := C91_turns_partial h j hp
  rw [hx] at hs
  obtain ⟨k1, k2, k3, k4, k5, -⟩ := busy_invariant (apps j) db hnames hlen (b.nodes j) hr he hi db.length (Nat.le_refl _) (by omega) us hs
  have hsame := idle_run _ k1.tx k2 k3 hl hz
  rw [hsame.engines]
  exact ⟨k4, k5⟩

/-- C91, one turn: the station that asked for a page of the list is shown that page. -/
theorem C91_page_partial {a : App} {db : List EngineRecord} {i : Nat} {o : Byte} {b b' : Bus} (h : Turn a db i (.page o) b b')
    (hp : b.pos i ≤ b.wire.length) (hr : Ready a (b.nodes i)) (he : (b.nodes i).station.callbacks.engine.isSome = true) :
    ∃ d, (b'.nodes i).consumers a.list = .list d ∧ Shows d (((db.map (·.name)).drop o.toNat).take 2) ∧
      d.numEnginesKnownByMaster = some (BitVec.ofNat 8 db.length) ∧ d.streamComplete = some true := by
  obtain ⟨-, -, -, d, h1, h2, h3, h4, -⟩ := C87_page a db o _ _ hr he (h.busy hp)
  exact ⟨d, h1, h2, h3, h4⟩

end RR32
