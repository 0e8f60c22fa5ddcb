import Verif.Model.Exchange
import Verif.Props.BusyDownload
import Verif.Props.Sending
import Verif.Props.NestedSend

/-!
# C108: several programs on one bus, with callbacks that call back
-/

set_option autoImplicit false

namespace RR32

open Spec

/-! ## What a node does -/

/-- What holds of node `j` after any history `ops`. -/
structure CrewInv (P : Nat → Program) (depth : Nat) (n0 n : Net) (ops : List BusOp) (j : Nat) : Prop where
  room : n.room = n0.room
  bound : (n.queue j).length ≤ n.room j
  hist : ∃ hist : List (Op ⊕ CanFrame), (World.runN (P j) depth (n0.nodes j) (hist.map deed)).Returns (n.nodes j) ∧
    hist.filterMap Sum.getLeft? = callsOf j ops ∧
    (hist.filterMap Sum.getRight? ++ n.queue j).Sublist (ofOthers j n.wire) ∧
    (hist.filterMap Sum.getRight? ++ n.queue j).length + n.lost j = (ofOthers j n.wire).length

theorem runN_snoc {P : Program} {depth : Nat} {w v u : World} {ops : List Op} {op : Op} (h : (World.runN P depth w ops).Returns v)
    (h' : (World.stepN P (World.nested P depth) v op).Returns u) : (World.runN P depth w (ops ++ [op])).Returns u := by
  unfold World.runN at h ⊢
  rw [List.foldlM_append]
  exact returns_bind.mpr ⟨v, h, by rw [List.foldlM_cons]; exact returns_bind.mpr ⟨u, h', World.returns_pure.mpr rfl⟩⟩

theorem crewInv_step (P : Nat → Program) (depth : Nat) (n0 n n' : Net) (done : List BusOp) (o : BusOp) (j : Nat) (h : CrewInv P depth n0 n done j)
    (hs : (n.stepWith P depth o).Returns n') : CrewInv P depth n0 n' (done ++ [o]) j := by
  obtain ⟨hist, h1, h2, h3, h4⟩ := h.hist
  have hcalls : callsOf j (done ++ [o]) = callsOf j done ++ callsOf j [o] := by simp [callsOf]
  -- frames are put on the bus after `m`, where node `j` has done `hist'`
  have put : ∀ (m : Net) (xs : List (Option Nat × CanFrame)) (hist' : List (Op ⊕ CanFrame)), m.room = n.room → m.wire = n.wire →
      m.lost = n.lost → (m.queue j).length ≤ (n.queue j).length → (World.runN (P j) depth (n0.nodes j) (hist'.map deed)).Returns (m.nodes j) →
      hist'.filterMap Sum.getLeft? = callsOf j (done ++ [o]) →
      hist'.filterMap Sum.getRight? ++ m.queue j = hist.filterMap Sum.getRight? ++ n.queue j →
      CrewInv P depth n0 (xs.foldl Net.deliver m) (done ++ [o]) j := by
    intro m xs hist' e1 e2 e4 e3 e5 e6 e7
    obtain ⟨k1, k2, k3, got, g1, g2, g3, g4, -⟩ := deliver_all xs m j
    rw [e1] at g4
    rw [e4] at g3
    have hb := h.bound
    refine ⟨by rw [k2, e1]; exact h.room, by rw [g1, k2, e1]; exact g4 (by omega), hist', by rw [k1]; exact e5, e6, ?_, ?_⟩
    · rw [g1, k3, e2, ofOthers_append, ← List.append_assoc, e7]
      exact h3.append g2
    · rw [g1, k3, e2, ofOthers_append, ← List.append_assoc, e7, List.length_append, List.length_append (as := ofOthers j n.wire)]
      omega
  cases o with
  | call i op =>
    obtain ⟨w, hw, e⟩ := returns_bind.mp hs
    have e := World.returns_pure.mp e
    subst e
    by_cases hij : i = j
    · subst hij
      refine put (n.setNode i w) _ (hist ++ [.inl op]) rfl rfl rfl (Nat.le_refl _) ?_ ?_ ?_
      · rw [List.map_append, show (n.setNode i w).nodes i = w from if_pos rfl]
        exact runN_snoc h1 hw
      · rw [List.filterMap_append, h2, hcalls]
        simp [callsOf]
      · rw [List.filterMap_append]
        simp [Net.setNode]
    · refine put (n.setNode i w) _ hist rfl rfl rfl (Nat.le_refl _) ?_ ?_ rfl
      · rw [show (n.setNode i w).nodes j = n.nodes j from if_neg (fun e => hij e.symm)]
        exact h1
      · rw [h2, hcalls]
        simp [callsOf, hij]
  | receive i =>
    have hnone : callsOf j [BusOp.receive i] = [] := rfl
    simp only [Net.stepWith] at hs
    split at hs
    · have e := World.returns_pure.mp hs
      subst e
      exact ⟨h.room, h.bound, hist, h1, by rw [h2, hcalls, hnone, List.append_nil], h3, h4⟩
    · next f q hq =>
      obtain ⟨w, hw, e⟩ := returns_bind.mp hs
      have e := World.returns_pure.mp e
      subst e
      by_cases hij : i = j
      · subst hij
        have e1 : (if i = i then q else n.queue i) = q := if_pos rfl
        refine put (Net.setNode { n with queue := fun m => if m = i then q else n.queue m } i w) _ (hist ++ [.inr f]) rfl rfl rfl ?_ ?_ ?_ ?_
        · show (if i = i then q else n.queue i).length ≤ _
          rw [e1, hq, List.length_cons]
          omega
        · rw [List.map_append, show (Net.setNode { n with queue := fun m => if m = i then q else n.queue m } i w).nodes i = w from if_pos rfl]
          exact runN_snoc h1 hw
        · rw [List.filterMap_append, h2, hcalls, hnone]
          simp
        · show _ ++ (if i = i then q else n.queue i) = _
          rw [e1, List.filterMap_append, hq]
          simp
      · have e1 : (if j = i then q else n.queue j) = n.queue j := if_neg (fun e => hij e.symm)
        refine put (Net.setNode { n with queue := fun m => if m = i then q else n.queue m } i w) _ hist rfl rfl rfl ?_ ?_ ?_ ?_
        · show (if j = i then q else n.queue j).length ≤ _
          rw [e1]
        · rw [show (Net.setNode { n with queue := fun m => if m = i then q else n.queue m } i w).nodes j = n.nodes j from
            if_neg (fun e => hij e.symm)]
          exact h1
        · rw [h2, hcalls, hnone, List.append_nil]
        · show _ ++ (if j = i then q else n.queue j) = _
          rw [e1]
  | foreign f =>
    have e := World.returns_pure.mp hs
    subst e
    exact put n [(none, f)] hist rfl rfl rfl (Nat.le_refl _) h1 (by rw [h2, hcalls]; simp [callsOf]) rfl

theorem crewInv_run (P : Nat → Program) (depth : Nat) (n0 : Net) (j : Nat) (ops : List BusOp) : ∀ (n n' : Net) (done : List BusOp),
    CrewInv P depth n0 n done j → (n.runWith P depth ops).Returns n' → CrewInv P depth n0 n' (done ++ ops) j := by
  induction ops with
  | nil =>
    intro n n' done h hr
    have e := World.returns_pure.mp hr
    subst e
    rw [List.append_nil]
    exact h
  | cons o ops ih =>
    intro n n' done h hr
    obtain ⟨m, h1, h2⟩ := returns_bind.mp (show (n.stepWith P depth o >>= fun c => c.runWith P depth ops).Returns n' from hr)
    have := ih m n' (done ++ [o]) (crewInv_step P depth n0 n m done o j h h1) h2
    rw [List.append_assoc] at this
    exact this

/-- C108. On a bus of programs whose callbacks call any functions, with receive buffers of any sizes: after every history that returns, the main program of
a node has made the calls of its application and has handled frames of the others, each at most once and in the order of the bus. Those and
the ones in its buffer are all but as many as were lost. -/
theorem C108_history (P : Nat → Program) (depth : Nat) (n0 n : Net) (h0 : FreshNet n0) (ops : List BusOp) (h : (n0.runWith P depth ops).Returns n)
    (j : Nat) :
    ∃ hist : List (Op ⊕ CanFrame), (World.runN (P j) depth (n0.nodes j) (hist.map deed)).Returns (n.nodes j) ∧
      hist.filterMap Sum.getLeft? = callsOf j ops ∧ (handled hist ++ n.queue j).Sublist (ofOthers j n.wire) ∧
      (handled hist).length + (n.queue j).length + n.lost j = (ofOthers j n.wire).length ∧ (n.queue j).length ≤ n0.room j := by
  have hi := crewInv_run P depth n0 j ops n0 n []
    ⟨rfl, by rw [h0.queue]; exact Nat.zero_le _, [], World.returns_pure.mpr rfl, rfl, by rw [h0.queue]; exact List.nil_sublist _,
      by rw [h0.queue, h0.lost, h0.wire]; rfl⟩ h
  obtain ⟨hist, h1, h2, h3, h4⟩ := hi.hist
  exact ⟨hist, h1, h2, h3, by rw [List.length_append] at h4; exact h4, by rw [← hi.room]; exact hi.bound⟩

/-! ## What is on the bus -/

theorem advance_wire (n : Net) (i : Nat) (w : World) (new : List LogEntry) (hl : w.log = (n.nodes i).log ++ new) :
    (∀ j, (n.advance i w).nodes j = if j = i then w else n.nodes j) ∧
      (n.advance i w).wire = n.wire ++ (Bus.sent new).map (fun f => (some i, f)) := by
  have hd := deliver_all ((Bus.sent (w.log.drop (n.nodes i).log.length)).map (fun f => (some i, f))) (n.setNode i w) 0
  refine ⟨fun j => ?_, ?_⟩
  · unfold Net.advance
    rw [hd.1]
    rfl
  · unfold Net.advance
    rw [hd.2.2.1, hl, List.drop_left]
    rfl

theorem wireWith_step (P : Nat → Program) (depth : Nat) (n n' : Net) (o : BusOp) (h : (n.stepWith P depth o).Returns n') :
    (∀ j, ∃ new, (n'.nodes j).log = (n.nodes j).log ++ new ∧ sentBy (some j) n'.wire = sentBy (some j) n.wire ++ Bus.sent new) ∧
      sentBy none n'.wire = sentBy none n.wire ++ foreignOf [o] := by
  have go : ∀ (m : Net) (i : Nat) (op : Op) (w : World), m.nodes = n.nodes → m.wire = n.wire →
      (World.stepN (P i) (World.nested (P i) depth) (n.nodes i) op).Returns w →
      (∀ j, ∃ new, ((m.advance i w).nodes j).log = (n.nodes j).log ++ new ∧
        sentBy (some j) (m.advance i w).wire = sentBy (some j) n.wire ++ Bus.sent new) ∧
        sentBy none (m.advance i w).wire = sentBy none n.wire := by
    intro m i op w e1 e2 hw
    obtain ⟨new, hl⟩ := keeps_returns (World.stepN_grows (P i) depth (n.nodes i) op (n.nodes i).log (List.prefix_refl _)) hw
    obtain ⟨a1, a2⟩ := advance_wire m i w new (by rw [e1]; exact hl.symm)
    rw [a2, e2]
    refine ⟨fun j => ?_, ?_⟩
    · rw [a1, e1]
      by_cases hj : j = i
      · subst hj
        exact ⟨new, by rw [if_pos rfl, hl], by rw [sentBy_append, sentBy_own, if_pos rfl]⟩
      · refine ⟨[], by rw [if_neg hj, List.append_nil], ?_⟩
        rw [sentBy_append, sentBy_own, if_neg (by intro x; injection x with x; exact hj x.symm)]
        rfl
    · rw [sentBy_append, sentBy_own, if_neg (by intro x; cases x), List.append_nil]
  cases o with
  | call i op =>
    obtain ⟨w, hw, e⟩ := returns_bind.mp h
    have e := World.returns_pure.mp e
    subst e
    obtain ⟨a, b⟩ := go n i op w rfl rfl hw
    exact ⟨a, by rw [b]; simp [foreignOf]⟩
  | receive i =>
    simp only [Net.stepWith] at h
    split at h
    · have e := World.returns_pure.mp h
      subst e
      exact ⟨fun j => ⟨[], by simp, by simp [Bus.sent]⟩, by simp [foreignOf]⟩
    · next f q hq =>
      obtain ⟨w, hw, e⟩ := returns_bind.mp h
      have e := World.returns_pure.mp e
      subst e
      obtain ⟨a, b⟩ := go { n with queue := fun m => if m = i then q else n.queue m } i _ w rfl rfl hw
      exact ⟨a, by rw [b]; simp [foreignOf]⟩
  | foreign f =>
    have e := World.returns_pure.mp h
    subst e
    refine ⟨fun j => ⟨[], by simp [Net.deliver], ?_⟩, ?_⟩
    · show sentBy (some j) (n.wire ++ [(none, f)]) = _
      simp [sentBy, Bus.sent]
    · show sentBy none (n.wire ++ [(none, f)]) = _
      simp [sentBy, foreignOf]

/-- C108. The bus carries what was sent: of each node exactly the frames its station gave to the tx callback, from whatever callback, each once and in this
order, and the frames of the other devices. -/
theorem C108_wire (P : Nat → Program) (depth : Nat) (n0 n : Net) (ops : List BusOp) (h : (n0.runWith P depth ops).Returns n) (hw : n0.wire = []) :
    (∀ j, ∃ new, (n.nodes j).log = (n0.nodes j).log ++ new ∧ sentBy (some j) n.wire = Bus.sent new) ∧ sentBy none n.wire = foreignOf ops := by
  have key : ∀ (ops : List BusOp) (m : Net), (m.runWith P depth ops).Returns n →
      (∀ j, ∃ new, (n.nodes j).log = (m.nodes j).log ++ new ∧ sentBy (some j) n.wire = sentBy (some j) m.wire ++ Bus.sent new) ∧
        sentBy none n.wire = sentBy none m.wire ++ foreignOf ops := by
    intro ops
    induction ops with
    | nil =>
      intro m h
      have e := World.returns_pure.mp h
      subst e
      exact ⟨fun j => ⟨[], by simp, by simp [Bus.sent]⟩, by simp [foreignOf]⟩
    | cons o ops ih =>
      intro m h
      obtain ⟨u, h1, h2⟩ := returns_bind.mp (show (m.stepWith P depth o >>= fun c => c.runWith P depth ops).Returns n from h)
      obtain ⟨a, b⟩ := wireWith_step P depth m u o h1
      obtain ⟨c, d⟩ := ih u h2
      refine ⟨fun j => ?_, ?_⟩
      · obtain ⟨x, x1, x2⟩ := a j
        obtain ⟨y, y1, y2⟩ := c j
        exact ⟨x ++ y, by rw [y1, x1, List.append_assoc], by rw [y2, x2, sent_append, List.append_assoc]⟩
      · rw [d, b, List.append_assoc]
        congr 1
        unfold foreignOf
        rw [← List.filterMap_append]
        rfl
  have := key ops n0 h
  rw [hw] at this
  simpa [sentBy] using this

/-! ## Callbacks that call nothing -/

theorem silent_step (P : Nat → Program) (hP : ∀ i, (P i).Silent) (depth : Nat) (n n' : Net) (o : BusOp) :
    (n.stepWith P depth o).Returns n' ↔ n.step o = .ok n' := by
  have step : ∀ i w op v, (World.stepN (P i) (World.nested (P i) depth) w op).Returns v ↔ w.step op = .ok v := fun i w op v =>
    World.stepN_silent (hP i) w v op
  cases o with
  | call i op =>
    simp only [Net.stepWith, Net.step]
    rw [returns_bind]
    constructor
    · rintro ⟨w, h1, h2⟩
      rw [(step i _ _ _).mp h1]
      exact congrArg Except.ok (World.returns_pure.mp h2)
    · intro h
      obtain ⟨w, h1, h2⟩ := bind_ok h
      injection h2 with h2
      exact ⟨w, (step i _ _ _).mpr h1, World.returns_pure.mpr h2⟩
  | receive i =>
    simp only [Net.stepWith, Net.step]
    cases hq : n.queue i with
    | nil => exact World.returns_pure.trans ⟨fun h => by rw [h], fun h => by injection h⟩
    | cons f q =>
      dsimp only
      rw [returns_bind]
      -- handling a frame sends none
      have none_sent : ∀ w, (n.nodes i).step (.handle f) = .ok w → Bus.sent (w.log.drop (n.nodes i).log.length) = [] := by
        intro w hw
        obtain ⟨new, hl, hn⟩ := step_atMost _ _ _ hw
        rw [hl, List.drop_left]
        exact List.length_eq_zero_iff.mp (Nat.le_zero.mp hn)
      have adv : ∀ w, (n.nodes i).step (.handle f) = .ok w →
          Net.advance { n with queue := fun m => if m = i then q else n.queue m } i w =
            { n.setNode i w with queue := fun m => if m = i then q else n.queue m } := by
        intro w hw
        show List.foldl Net.deliver (Net.setNode { n with queue := fun m => if m = i then q else n.queue m } i w)
          ((Bus.sent (w.log.drop (n.nodes i).log.length)).map (fun f => (some i, f))) = _
        rw [none_sent w hw]
        rfl
      constructor
      · rintro ⟨w, h1, h2⟩
        have h1 := (step i _ _ _).mp h1
        have h2 := World.returns_pure.mp h2
        rw [adv w h1] at h2
        rw [h1]
        exact congrArg Except.ok h2
      · intro h
        obtain ⟨w, h1, h2⟩ := bind_ok h
        injection h2 with h2
        exact ⟨w, (step i _ _ _).mpr h1, World.returns_pure.mpr (by rw [adv w h1]; exact h2)⟩
  | foreign f => exact World.returns_pure.trans ⟨fun h => congrArg Except.ok h, fun h => by injection h⟩

/-- C108. If no callback calls anything this is the bus of C106. -/
theorem C108_silent (P : Nat → Program) (hP : ∀ i, (P i).Silent) (depth : Nat) (n n' : Net) (ops : List BusOp) :
    (n.runWith P depth ops).Returns n' ↔ n.run ops = .ok n' := by
  induction ops generalizing n with
  | nil => exact World.returns_pure.trans ⟨fun h => congrArg Except.ok h, fun h => by injection h⟩
  | cons o ops ih =>
    show (n.stepWith P depth o >>= fun c => c.runWith P depth ops).Returns n' ↔ (n.step o >>= fun c => c.run ops) = .ok n'
    rw [returns_bind]
    constructor
    · rintro ⟨m, h1, h2⟩
      rw [(silent_step P hP depth n m o).mp h1]
      exact (ih m).mp h2
    · intro h
      obtain ⟨m, h1, h2⟩ := bind_ok h
      exact ⟨m, (silent_step P hP depth n m o).mpr h1, (ih m).mpr h2⟩

/-! ## Callbacks that only send -/

theorem notCall_filter (l : List LogEntry) : l.filter (fun | .call _ => false | _ => true) = l.filter (fun e => !isCall e) := by
  congr 1
  funext e
  cases e <;> rfl

/-- C108. A node whose callbacks only send: its station, parsers, consumers and engines are as in a program without such callbacks that makes the same
calls and handles the same frames, and consumers and end-of-stream callbacks are told the same. -/
theorem C108_only_sends (P : Nat → Program) (depth : Nat) (n0 n : Net) (h0 : FreshNet n0) (ops : List BusOp) (h : (n0.runWith P depth ops).Returns n)
    (j : Nat) (hP : ∀ w e, ∀ op ∈ P j w e, OnlySends op) :
    ∃ (hist : List (Op ⊕ CanFrame)) (u : World), (n0.nodes j).run (hist.map deed) = .ok u ∧ hist.filterMap Sum.getLeft? = callsOf j ops ∧
      (handled hist ++ n.queue j).Sublist (ofOthers j n.wire) ∧
      (handled hist).length + (n.queue j).length + n.lost j = (ofOthers j n.wire).length ∧
      (n.nodes j).station = u.station ∧ (n.nodes j).parsers = u.parsers ∧ (n.nodes j).consumers = u.consumers ∧ (n.nodes j).engines = u.engines ∧
      (n.nodes j).log.filter (fun e => !isCall e) = u.log.filter (fun e => !isCall e) := by
  obtain ⟨hist, h1, h2, h3, h4, -⟩ := C108_history P depth n0 n h0 ops h j
  obtain ⟨u, g1, g2, g3, g4, g5, -, g6⟩ := World.C104_only_sends (P j) hP depth _ _ _ h1
  exact ⟨hist, u, g1, h2, h3, h4, g2, g3, g4, g5, by rw [← notCall_filter, ← notCall_filter]; exact g6⟩

/-! ## Downloads -/

/-- As `BusyDownload`, with callbacks that call back. -/
structure Spec.LivelyDownload (P : Nat → Program) (depth : Nat) (n0 n : Net) (j p c : Nat) (op : Op) (ops : List BusOp) (answer : List CanFrame) :
    Prop where
  fresh : FreshNet n0
  sound : Sound (n0.nodes j)
  tx : ∃ tx, (n0.nodes j).station.callbacks.tx = some tx
  engine : (n0.nodes j).station.callbacks.engine.isSome = true
  parser : (n0.nodes j).station.callbacks.configData ≠ some p
  request : Requests (n0.nodes j) p op
  control : ∀ o ∈ callsOf j ops, isControl o = true
  sends : ∀ w e, ∀ o ∈ P j w e, OnlySends o
  run : (n0.runWith P depth (.call j (.parserStart p (some c)) :: .call j op :: ops)).Returns n
  answer : (ofOthers j n.wire).filter inStream = answer
  short : ∀ f ∈ ofOthers j n.wire, f.data.dlc.toNat ≤ 8

theorem own_callWith (P : Nat → Program) (depth : Nat) (n n' : Net) (j : Nat) (op : Op) (h : (n.stepWith P depth (.call j op)).Returns n') :
    (World.stepN (P j) (World.nested (P j) depth) (n.nodes j) op).Returns (n'.nodes j) ∧ n'.queue j = n.queue j ∧ n'.lost j = n.lost j ∧
      ofOthers j n'.wire = ofOthers j n.wire := by
  obtain ⟨w, hw, e⟩ := returns_bind.mp h
  have e := World.returns_pure.mp e
  subst e
  unfold Net.advance
  obtain ⟨d1, d2, d3, got, g1, g2, g3, -⟩ := deliver_all ((Bus.sent (w.log.drop (n.nodes j).log.length)).map (fun f => (some j, f))) (n.setNode j w) j
  rw [ofOthers_own] at g2 g3
  have e : got = [] := List.sublist_nil.mp g2
  subst e
  refine ⟨?_, by rw [g1, List.append_nil]; rfl, by simp only [List.length_nil, Nat.zero_add] at g3; exact g3,
    by rw [d3, ofOthers_append, ofOthers_own, List.append_nil]; rfl⟩
  rw [d1]
  show Run.Returns _ (if j = j then w else _)
  rw [if_pos rfl]
  exact hw

/-- What the program of the node did, and the state in which a program without such callbacks is after it. -/
theorem lively_hist {P : Nat → Program} {depth : Nat} {n0 n : Net} {j p c : Nat} {op : Op} {ops : List BusOp} {answer : List CanFrame}
    (h : LivelyDownload P depth n0 n j p c op ops answer) :
    ∃ (v u : World) (hist : List (Op ⊕ CanFrame)), (n0.nodes j).run [.parserStart p (some c), op] = .ok v ∧ v.run (hist.map deed) = .ok u ∧
      (n.nodes j).consumers = u.consumers ∧ (n.nodes j).engines = u.engines ∧
      (n.nodes j).log.filter (fun e => !isCall e) = u.log.filter (fun e => !isCall e) ∧
      (handled hist ++ n.queue j).Sublist (ofOthers j n.wire) ∧
      (handled hist).length + (n.queue j).length + n.lost j = (ofOthers j n.wire).length ∧
      (hist.map deed).filter (fun o => !isControl o) = ((handled hist).filter inStream).map .handle ∧
      (∀ f ∈ handled hist, f.data.dlc.toNat ≤ 8) ∧ ((handled hist).filter inStream).Sublist answer := by
  obtain ⟨n1, a1, hr⟩ := returns_bind.mp (show (n0.stepWith P depth _ >>= fun c => c.runWith P depth _).Returns n from h.run)
  obtain ⟨n2, a2, hr⟩ := returns_bind.mp (show (n1.stepWith P depth _ >>= fun c => c.runWith P depth _).Returns n from hr)
  obtain ⟨b1, b2, b3, b4⟩ := own_callWith P depth n0 n1 j _ a1
  obtain ⟨c1, c2, c3, c4⟩ := own_callWith P depth n1 n2 j _ a2
  have inv := crewInv_run P depth n2 j ops n2 n []
    ⟨rfl, by rw [c2, b2, h.fresh.queue]; exact Nat.zero_le _, [], World.returns_pure.mpr rfl, rfl,
      by rw [c2, b2, h.fresh.queue]; exact List.nil_sublist _, by rw [c2, b2, h.fresh.queue, c3, b3, h.fresh.lost, c4, b4, h.fresh.wire]; rfl⟩ hr
  obtain ⟨hist, k1, k2, k3, k4⟩ := inv.hist
  rw [List.nil_append] at k2
  have hhandled : (handled hist).Sublist (ofOthers j n.wire) := (List.sublist_append_left _ _).trans k3
  have hle : ∀ f ∈ handled hist, f.data.dlc.toNat ≤ 8 := fun f hf => h.short f (hhandled.subset hf)
  have hall : (World.runN (P j) depth (n0.nodes j) ([.parserStart p (some c), op] ++ hist.map deed)).Returns (n.nodes j) := by
    have hpre : (World.runN (P j) depth (n0.nodes j) [.parserStart p (some c), op]).Returns (n2.nodes j) :=
      runN_snoc (ops := [.parserStart p (some c)]) (runN_snoc (ops := []) (World.returns_pure.mpr rfl) b1) c1
    unfold World.runN at hpre k1 ⊢
    rw [List.foldlM_append]
    exact returns_bind.mpr ⟨_, hpre, k1⟩
  obtain ⟨u, g1, -, -, g4, g5, -, g6⟩ := World.C104_only_sends (P j) h.sends depth _ _ _ hall
  rw [World.run_append] at g1
  obtain ⟨v, g1, g2⟩ := bind_ok g1
  exact ⟨v, u, hist, g1, g2, g4, g5, by rw [← notCall_filter, ← notCall_filter]; exact g6, k3, by rw [List.length_append] at k4; exact k4,
    filter_hist hist (fun o ho => h.control o (by rw [← k2]; exact ho)) hle, hle, by rw [← h.answer]; exact hhandled.filter _⟩

/-- C108. A download on a bus where the callbacks of the other nodes call anything and those of this node only send: the consumer is told `complete`
exactly if the receive loop has handled all frames of the answer. -/
theorem C108_complete (P : Nat → Program) (depth : Nat) (n0 n : Net) (j p c : Nat) (op : Op) (ops : List BusOp) (first : CanFrame) (ds : List CanFrame)
    (h : LivelyDownload P depth n0 n j p c op ops (first :: ds)) (hi : ((n0.nodes j).consumers c).Initialised)
    (hwhole : Whole ((first :: ds).map (·.data))) :
    ∃ (v : World) (hs : List CanFrame) (new : List LogEntry), (n0.nodes j).run [.parserStart p (some c), op] = .ok v ∧
      (hs ++ n.queue j).Sublist (ofOthers j n.wire) ∧ hs.length + (n.queue j).length + n.lost j = (ofOthers j n.wire).length ∧
      (n.nodes j).log.filter (fun e => !isCall e) = v.log.filter (fun e => !isCall e) ++ new ∧
      (.consumer ⟨c, .complete⟩ ∈ new ↔ hs.filter inStream = first :: ds) ∧
      (∀ cb m seen, .streamEnd cb m true seen ∈ new → m = c ∧ hs.filter inStream = first :: ds) := by
  obtain ⟨v, u, hist, k0, k1, -, -, kl, k2, k3, k4, k5, k6⟩ := lively_hist h
  obtain ⟨tx, htx⟩ := h.tx
  obtain ⟨v', e1, e2⟩ := C62_station (n0.nodes j) h.sound tx htx h.engine p c hi h.parser op h.request ((handled hist).filter inStream)
    (fun f hf => by
      obtain ⟨f1, f2⟩ := List.mem_filter.mp hf
      exact ⟨of_decide_eq_true f2, by have := k5 f f1; omega⟩)
    (hist.map deed) k4
  have ev : v' = v := by
    rw [k0] at e1
    injection e1 with e1
    exact e1.symm
  subst ev
  obtain ⟨new, f1, f2, -, f4⟩ := e2 _ k1
  have hall := whole_handled hwhole k6
  refine ⟨v', handled hist, new, k0, k2, k3, by rw [kl]; exact f1, f2.trans hall, fun cb m seen hm => ?_⟩
  obtain ⟨g1, g2⟩ := f4 cb m seen hm
  exact ⟨g1, hall.mp g2⟩

/-- C108. If nothing was lost, an engine file has arrived, on a bus where callbacks call back and those of this node only send. -/
theorem C108_engine (P : Nat → Program) (depth : Nat) (n0 n : Net) (j p c : Nat) (op : Op) (ops : List BusOp) (first : CanFrame) (rest : List CanFrame)
    (h : LivelyDownload P depth n0 n j p c op ops (first :: rest)) (hl : n.lost j = 0) (hq : n.queue j = []) (ht : Tidy (n0.nodes j))
    (hpf : 32 ≤ (n0.nodes j).pf.longBits) (e cb : Nat) (l : LocoConsumer) (hc : (n0.nodes j).consumers c = .loco l) (he : l.currentEngine = .obj e)
    (hcb : l.streamEndCallback = .obj cb) (hname : Terminated ((n0.nodes j).engines e).info.name)
    (hprot : ((n0.nodes j).engines e).protocol.length = 8) (items : List Item) (tail : Tail) (hw : WireStream first rest items tail)
    (uid address : U32) (protocol : List Byte) (hfile : EngineFile (entriesOf [] items) uid address protocol) :
    ((n.nodes j).engines e).data.uid = uid ∧ ((n.nodes j).engines e).data.address = ⟨address⟩ ∧
      cstr ((n.nodes j).engines e).protocol = .ok protocol ∧ ((n.nodes j).engines e).isFullDetailsKnown = true ∧
      (∀ m, m ≠ e → (n.nodes j).engines m = (n0.nodes j).engines m) ∧
      ∃ v, (n0.nodes j).run [.parserStart p (some c), op] = .ok v ∧
        (n.nodes j).log.filter (fun e => !isCall e) = v.log.filter (fun e => !isCall e) ++
          (calls c ((entriesOf [] items).map .entry ++ [.complete])).map .consumer ++ [.streamEnd cb c true (.engine ((n.nodes j).engines e))] := by
  obtain ⟨v, u, hist, k0, k1, -, ke, kl, k2, k3, k4, -, -⟩ := lively_hist h
  rw [hq, List.append_nil] at k2
  rw [hl, hq] at k3
  rw [k2.eq_of_length (by simpa using k3), h.answer] at k4
  obtain ⟨tx, htx⟩ := h.tx
  obtain ⟨v', u', g1, g2, a1, a2, a3, a4, -, -, -, -, a9, a10⟩ := C61_engine_download (n0.nodes j) h.sound ht hpf tx htx h.engine p c e cb l hc he hcb hname
    hprot h.parser op h.request first rest items tail hw uid address protocol hfile (hist.map deed) k4
  have ev : v' = v := by
    rw [k0] at g1
    injection g1 with g1
    exact g1.symm
  subst ev
  have eu : u' = u := by
    rw [k1] at g2
    injection g2 with g2
    exact g2.symm
  subst eu
  rw [ke, kl]
  exact ⟨a1, a2, a3, a4, a9, v', k0, a10⟩

/-- C108. If nothing was lost, an engine list has arrived, on a bus where callbacks call back and those of this node only send. -/
theorem C108_list (P : Nat → Program) (depth : Nat) (n0 n : Net) (j p c : Nat) (op : Op) (ops : List BusOp) (first : CanFrame) (rest : List CanFrame)
    (h : LivelyDownload P depth n0 n j p c op ops (first :: rest)) (hl : n.lost j = 0) (hq : n.queue j = []) (ht : Tidy (n0.nodes j))
    (hpf : 9 ≤ (n0.nodes j).pf.longBits) (cb : Nat) (l : LocoListConsumer) (hc : (n0.nodes j).consumers c = .list l) (hempty : Shows l [])
    (hcb : l.streamEndCallback = .obj cb) (items : List Item) (tail : Tail) (hw : WireStream first rest items tail)
    (ns : List (List Byte)) (count : Byte) (hfile : ListFile (entriesOf [] items) ns count) :
    ∃ v d, (n0.nodes j).run [.parserStart p (some c), op] = .ok v ∧ (n.nodes j).consumers c = .list d ∧ Shows d (ns.take 2) ∧
      d.numEnginesKnownByMaster = some count ∧ d.streamComplete = some true ∧ (n.nodes j).engines = (n0.nodes j).engines ∧
      (n.nodes j).log.filter (fun e => !isCall e) = v.log.filter (fun e => !isCall e) ++
        (calls c ((entriesOf [] items).map .entry ++ [.complete])).map .consumer ++ [.streamEnd cb c true (.list d)] := by
  obtain ⟨v, u, hist, k0, k1, kc, ke, kl, k2, k3, k4, -, -⟩ := lively_hist h
  rw [hq, List.append_nil] at k2
  rw [hl, hq] at k3
  rw [k2.eq_of_length (by simpa using k3), h.answer] at k4
  obtain ⟨tx, htx⟩ := h.tx
  obtain ⟨v', u', d, g1, g2, g3⟩ := C61_list_download (n0.nodes j) h.sound ht hpf tx htx h.engine p c cb l hc hempty hcb h.parser op h.request
    first rest items tail hw ns count hfile (hist.map deed) k4
  have ev : v' = v := by
    rw [k0] at g1
    injection g1 with g1
    exact g1.symm
  subst ev
  have eu : u' = u := by
    rw [k1] at g2
    injection g2 with g2
    exact g2.symm
  subst eu
  rw [ke, kl, kc]
  exact ⟨v', d, k0, g3⟩

/-! ## Callbacks that answer each other -/

/-- An engine callback that commands each velocity it is told. -/
def echo : Program := fun _ e =>
  match e with
  | .call (.setLocoVelocity _ uid v) => [.sendVelocity { uid := uid } v]
  | _ => []

/-- Nodes 0 and 1 have a transmit and an engine callback, and room for a frame. -/
structure Spec.Pair (n : Net) : Prop where
  tx : ∀ i, i < 2 → (n.nodes i).station.callbacks.tx.isSome = true
  engine : ∀ i, i < 2 → (n.nodes i).station.callbacks.engine.isSome = true
  room : ∀ i, i < 2 → 0 < n.room i

/-- Nodes `i`, `1 - i`, `i`, ... receive, `N` times in all. -/
def Spec.rally (i : Nat) : Nat → List BusOp
  | 0 => []
  | N + 1 => .receive i :: Spec.rally (1 - i) N

/-- A velocity is sent, with callbacks that call nothing at that: it is the only new entry of the log. -/
theorem echo_send (k : World → Op → Run World) (w : World) (ht : w.station.callbacks.tx.isSome = true) (e : LocomotiveData) (v : U16) :
    ∃ (cb : Nat) (f : CanFrame), (World.stepN echo k w (.sendVelocity e v)).Returns (w.logAll [.call (.tx cb f)]) ∧
      ∀ (r : Station) (b : Bool) (eng : Nat), r.callbacks.engine = some eng →
        r.HandlePacket b f = .ok [.setLocoVelocity eng e.uid (BitVec.ofNat 16 (min v.toNat 1000))] := by
  obtain ⟨cb, ht⟩ := Option.isSome_iff_exists.mp ht
  obtain ⟨f, h1, -⟩ := C18_velocity w.station { w.station with callbacks := { w.station.callbacks with engine := some 0 } } cb 0 ht rfl false e v
  refine ⟨cb, f, ?_, fun r b eng hr => ?_⟩
  · unfold World.stepN World.runCallsN
    dsimp only
    rw [h1]
    refine returns_bind.mpr ⟨_, returns_lift.mpr rfl, ?_⟩
    refine returns_bind.mpr ⟨w.logAll [.call (.tx cb f)], ?_, World.returns_pure.mpr rfl⟩
    unfold World.runCallN
    rw [ht]
    exact World.returns_pure.mpr rfl
  · obtain ⟨f', g1, g2⟩ := C18_velocity w.station r cb eng ht hr b e v
    rw [h1] at g1
    injection g1 with g1
    injection g1 with g1
    injection g1 with _ g1
    rw [g1]
    exact g2

/-- The state between two receives. -/
structure Serving (n : Net) (i : Nat) : Prop where
  pair : Pair n
  mine : ∃ f uid v, n.queue i = [f] ∧ ∀ (r : Station) (b : Bool) (eng : Nat), r.callbacks.engine = some eng →
    r.HandlePacket b f = .ok [.setLocoVelocity eng uid v]
  yours : n.queue (1 - i) = []

theorem advance_serving {n : Net} {i : Nat} (hi : i < 2) (hp : Pair n) (hq : ∀ j, j < 2 → n.queue j = []) (w : World) (new : List LogEntry)
    (hl : w.log = (n.nodes i).log ++ new) (hs : w.station = (n.nodes i).station) (f : CanFrame) (hf : Bus.sent new = [f]) (uid : U32) (v : U16)
    (hv : ∀ (r : Station) (b : Bool) (eng : Nat), r.callbacks.engine = some eng → r.HandlePacket b f = .ok [.setLocoVelocity eng uid v]) :
    Serving (n.advance i w) (1 - i) ∧ (n.advance i w).wire.length = n.wire.length + 1 := by
  obtain ⟨h1, h2⟩ := advance_wire n i w new hl
  have hst : ∀ j, ((n.advance i w).nodes j).station = (n.nodes j).station := by
    intro j
    rw [h1]
    split
    · next e => rw [e, hs]
    · rfl
  have hadv : n.advance i w = (n.setNode i w).deliver (some i, f) := by
    unfold Net.advance
    rw [hl, List.drop_left, hf]
    rfl
  have hroom := hp.room (1 - i) (by omega)
  refine ⟨⟨⟨fun j hj => ?_, fun j hj => ?_, fun j hj => ?_⟩, ⟨f, uid, v, ?_, hv⟩, ?_⟩, by rw [h2, hf]; simp⟩
  · rw [hst]; exact hp.tx j hj
  · rw [hst]; exact hp.engine j hj
  · rw [hadv]; exact hp.room j hj
  · rw [hadv]
    show (if (n.setNode i w).fits (some i, f) (1 - i) then n.queue (1 - i) ++ [f] else n.queue (1 - i)) = _
    rw [hq (1 - i) (by omega), if_pos]
    · rfl
    · unfold Net.fits
      have : (n.setNode i w).queue (1 - i) = [] := hq (1 - i) (by omega)
      rw [this, Bool.and_eq_true, decide_eq_true_iff, decide_eq_true_iff]
      exact ⟨fun e => by injection e with e; omega, hroom⟩
  · rw [hadv]
    have e : 1 - (1 - i) = i := by omega
    rw [e]
    show (if (n.setNode i w).fits (some i, f) i then n.queue i ++ [f] else n.queue i) = _
    rw [if_neg, hq i hi]
    unfold Net.fits
    simp

theorem serving_receive (depth : Nat) (n : Net) (i : Nat) (hi : i < 2) (h : Serving n i) :
    ∃ n', (n.stepWith (fun _ => echo) (depth + 1) (.receive i)).Returns n' ∧ Serving n' (1 - i) ∧ n'.wire.length = n.wire.length + 1 := by
  obtain ⟨f, uid, v, hq, hv⟩ := h.mine
  obtain ⟨eng, he⟩ := Option.isSome_iff_exists.mp (h.pair.engine i hi)
  obtain ⟨cb, g, g1, g2⟩ := echo_send (World.nested echo depth) ((n.nodes i).logAll [.call (.setLocoVelocity eng uid v)]) (h.pair.tx i hi) { uid := uid } v
  have hstep : (World.stepN echo (World.nested echo (depth + 1)) (n.nodes i) (.handle f)).Returns
      (((n.nodes i).logAll [.call (.setLocoVelocity eng uid v)]).logAll [.call (.tx cb g)]) := by
    unfold World.stepN World.runCallsN
    dsimp only
    rw [hv _ _ eng he]
    refine returns_bind.mpr ⟨_, returns_lift.mpr rfl, ?_⟩
    refine returns_bind.mpr ⟨_, ?_, World.returns_pure.mpr rfl⟩
    unfold World.runCallN World.tell World.react
    refine returns_bind.mpr ⟨_, ?_, World.returns_pure.mpr rfl⟩
    exact g1
  refine ⟨_, ?_, advance_serving (n := { n with queue := fun m => if m = i then [] else n.queue m }) hi ⟨h.pair.tx, h.pair.engine, h.pair.room⟩ ?_
    (((n.nodes i).logAll [.call (.setLocoVelocity eng uid v)]).logAll [.call (.tx cb g)]) [.call (.setLocoVelocity eng uid v), .call (.tx cb g)] ?_ rfl g rfl uid _ g2⟩
  · unfold Net.stepWith
    dsimp only
    rw [hq]
    exact returns_bind.mpr ⟨_, hstep, World.returns_pure.mpr rfl⟩
  · intro j hj
    show (if j = i then [] else n.queue j) = []
    split
    · rfl
    · next hne =>
      have : j = 1 - i := by omega
      rw [this]
      exact h.yours
  · show (n.nodes i).log ++ _ ++ _ = _
    rw [List.append_assoc]
    rfl

/-- C108. Two such programs never come to rest: after one command of one application there is a frame in a buffer however often the loops have received, and each
receive puts another frame on the bus. -/
theorem C108_storm (n : Net) (h : Pair n) (hq : ∀ i, i < 2 → n.queue i = []) (e : LocomotiveData) (v : U16) (depth N : Nat) :
    ∃ n', (n.runWith (fun _ => echo) (depth + 1) (.call 0 (.sendVelocity e v) :: rally 1 N)).Returns n' ∧
      n'.wire.length = n.wire.length + 1 + N ∧ ∃ i, i < 2 ∧ (n'.queue i).length = 1 := by
  have go : ∀ (N i : Nat) (n : Net), i < 2 → Serving n i → ∃ n', (n.runWith (fun _ => echo) (depth + 1) (rally i N)).Returns n' ∧
      n'.wire.length = n.wire.length + N ∧ ∃ i, i < 2 ∧ (n'.queue i).length = 1 := by
    intro N
    induction N with
    | zero =>
      intro i n hi hs
      obtain ⟨f, -, -, hf, -⟩ := hs.mine
      exact ⟨n, World.returns_pure.mpr rfl, rfl, i, hi, by rw [hf]; rfl⟩
    | succ N ih =>
      intro i n hi hs
      obtain ⟨n1, a1, a2, a3⟩ := serving_receive depth n i hi hs
      obtain ⟨n2, b1, b2, b3⟩ := ih (1 - i) n1 (by omega) a2
      refine ⟨n2, ?_, by omega, b3⟩
      show (n.stepWith _ _ _ >>= fun c => c.runWith _ _ _).Returns n2
      exact returns_bind.mpr ⟨n1, a1, b1⟩
  obtain ⟨cb, g, g1, g2⟩ := echo_send (World.nested echo (depth + 1)) (n.nodes 0) (h.tx 0 (by omega)) e v
  obtain ⟨a1, a2⟩ := advance_serving (i := 0) (by omega) h hq ((n.nodes 0).logAll [.call (.tx cb g)]) [.call (.tx cb g)] rfl rfl g rfl _ _ g2
  obtain ⟨n2, b1, b2, b3⟩ := go N 1 _ (by omega) a1
  refine ⟨n2, ?_, by omega, b3⟩
  show (n.stepWith _ _ _ >>= fun c => c.runWith _ _ _).Returns n2
  exact returns_bind.mpr ⟨_, returns_bind.mpr ⟨_, g1, World.returns_pure.mpr rfl⟩, b1⟩

/-! ## Concrete installations -/

/-- As `netOutcome`. -/
def livelyOutcome (P : Nat → Program) (depth : Nat) (n : Net) (ops : List BusOp) (p : Net → Bool) : Bool :=
  match (n.runWith P depth ops).run with
  | some (.ok c) => p c
  | _ => false

theorem livelyOutcome_true {P : Nat → Program} {depth : Nat} {n : Net} {ops : List BusOp} {p : Net → Bool} (h : livelyOutcome P depth n ops p = true) :
    ∃ c, (n.runWith P depth ops).Returns c ∧ p c = true := by
  unfold livelyOutcome at h
  split at h
  · next c e => exact ⟨c, e, h⟩
  · cases h

/-- `C108_storm` is about installations such as `smallNet`. With callbacks that call nothing there is one frame instead of eight. -/
example : Pair smallNet ∧ livelyOutcome (fun _ => echo) 1 smallNet (.call 0 (.sendVelocity { uid := 5#32 } 9#16) :: rally 1 7)
      (fun n => n.wire.length = 8 ∧ (n.queue 0).length = 1 ∧ (n.queue 1).length = 0 ∧ n.lost 2 = 6) = true ∧
    livelyOutcome (fun _ _ _ => []) 1 smallNet (.call 0 (.sendVelocity { uid := 5#32 } 9#16) :: rally 1 7)
      (fun n => n.wire.length = 1 ∧ (n.queue 0).length = 0 ∧ (n.queue 1).length = 0 ∧ n.lost 2 = 0) = true :=
  ⟨⟨fun _ _ => rfl, fun _ _ => rfl, fun _ _ => Nat.zero_lt_succ 1⟩, by decide +kernel, by decide +kernel⟩

/-- Node 0 sends at each entry and at each end; node 1 answers each velocity. -/
def livelyCrew : Nat → Program
  | 0 => World.reporting
  | _ => echo

theorem reporting_only_sends (w : World) (e : LogEntry) (o : Op) (h : o ∈ World.reporting w e) : OnlySends o := by
  unfold World.reporting at h
  split at h <;> simp only [List.mem_cons, List.not_mem_nil, or_false] at h
  · subst h; trivial
  · subst h; trivial
  · rcases h with rfl | rfl <;> trivial

theorem case_lively (ops : List BusOp) (lost own : Nat) (complete : Bool) (hctl : callsOf 0 ops = [])
    (h : livelyOutcome livelyCrew 2 tightNet (.call 0 (.parserStart 0 (some 7)) :: .call 0 caseRequest :: ops) (fun n =>
      (ofOthers 0 n.wire).filter inStream = caseFrames.1 :: caseFrames.2 ∧ (ofOthers 0 n.wire).all (fun f => f.data.dlc.toNat ≤ 8) ∧ n.lost 0 = lost ∧
        n.queue 0 = [] ∧ caseComplete n = complete ∧ (n.wire.filter (fun x => x.1 = some 0)).length = own) = true) :
    ∃ n, LivelyDownload livelyCrew 2 tightNet n 0 0 7 caseRequest ops (caseFrames.1 :: caseFrames.2) ∧ n.lost 0 = lost ∧ n.queue 0 = [] ∧
      caseComplete n = complete ∧ (n.wire.filter (fun x => x.1 = some 0)).length = own := by
  obtain ⟨n, hn, hp⟩ := livelyOutcome_true h
  obtain ⟨h1, h2, h3, h4, h5, h6⟩ := of_decide_eq_true hp
  exact ⟨n, ⟨⟨rfl, fun _ => rfl, fun _ => rfl⟩, busyWorld_sound, ⟨1, rfl⟩, rfl, by decide,
    .shortInfo _ rfl (by unfold Terminated; decide) (Or.inl rfl), by rw [hctl]; simp, fun w e => reporting_only_sends w e, hn, h1,
    fun f hf => of_decide_eq_true (List.all_eq_true.mp h2 f hf)⟩, h3, h4, h5, h6⟩

/-- Both histories of C107 with callbacks that send: in the second one those of node 0 send too. -/
example : (∃ n, LivelyDownload livelyCrew 2 tightNet n 0 0 7 caseRequest lateOps (caseFrames.1 :: caseFrames.2) ∧ n.lost 0 = 1 ∧ n.queue 0 = [] ∧
      caseComplete n = false ∧ (n.wire.filter (fun x => x.1 = some 0)).length = 3) ∧
    ∃ n, LivelyDownload livelyCrew 2 tightNet n 0 0 7 caseRequest timelyOps (caseFrames.1 :: caseFrames.2) ∧ n.lost 0 = 0 ∧ n.queue 0 = [] ∧
      caseComplete n = true ∧ (n.wire.filter (fun x => x.1 = some 0)).length = 6 :=
  ⟨case_lively lateOps 1 3 false rfl (by decide +kernel), case_lively timelyOps 0 6 true rfl (by decide +kernel)⟩

/-- The engine file of C107, with callbacks that call nothing. -/
example : ∃ (n0 n : Net) (first : CanFrame) (rest : List CanFrame) (pad : Nat),
    WireStream first rest caseEngine (.filler (List.replicate pad 0#8)) ∧ n.lost 0 = 0 ∧ n.queue 0 = [] ∧
    LivelyDownload (fun _ _ _ => []) 0 n0 n 0 0 7 (.requestEngine 3 (some 0)) (politeAnswer 0 (first :: rest)) (first :: rest) ∧
    ((n.nodes 0).engines 3).data.uid = 0x4006#32 ∧ ((n.nodes 0).engines 3).data.address = ⟨6#32⟩ := by
  obtain ⟨n0, n, first, rest, pad, hw, -, h1, h2, h, h3⟩ := case_engine_download
  exact ⟨n0, n, first, rest, pad, hw, h1, h2,
    ⟨h.fresh, h.sound, h.tx, h.engine, h.parser, h.request, h.control, fun _ _ _ ho => (by cases ho),
      (C108_silent _ (fun _ _ _ => rfl) 0 _ _ _).mpr h.run, h.answer, h.short⟩, h3⟩

end RR32
