import Verif.Model.Overrun
import Verif.Props.Bus

/-!
# C106: receive buffers that overrun
-/

set_option autoImplicit false

namespace RR32

open Spec

namespace Spec

/-- The frames of a wire that are not of node `j`. -/
def ofOthers (j : Nat) (wire : List (Option Nat × CanFrame)) : List CanFrame := (wire.filter (fun x => x.1 ≠ some j)).map (·.2)

/-- The calls the application of node `j` makes in a history. -/
def callsOf (j : Nat) (ops : List BusOp) : List Op :=
  ops.filterMap (fun o => match o with
    | .call i op => if i = j then some op else none
    | _ => none)

/-- What the program of a node does: calls of its application (left) and frames its receive loop passes to the station (right). -/
def deed : Op ⊕ CanFrame → Op
  | .inl op => op
  | .inr f => .handle f

/-- An installation at the start: nothing on the wire, nothing in the buffers, nothing lost. -/
structure FreshNet (n : Net) : Prop where
  wire : n.wire = []
  queue : ∀ j, n.queue j = []
  lost : ∀ j, n.lost j = 0

end Spec

theorem ofOthers_append (j : Nat) (a b : List (Option Nat × CanFrame)) : ofOthers j (a ++ b) = ofOthers j a ++ ofOthers j b := by
  simp [ofOthers]

theorem ofOthers_own (i : Nat) (fs : List CanFrame) : ofOthers i (fs.map (fun f => (some i, f))) = [] := by
  simp [ofOthers]

/-- Frames on the bus, one after the other. -/
theorem deliver_all (xs : List (Option Nat × CanFrame)) (n : Net) (j : Nat) :
    (xs.foldl Net.deliver n).nodes = n.nodes ∧ (xs.foldl Net.deliver n).room = n.room ∧ (xs.foldl Net.deliver n).wire = n.wire ++ xs ∧
      ∃ got, (xs.foldl Net.deliver n).queue j = n.queue j ++ got ∧ got.Sublist (ofOthers j xs) ∧
        got.length + (xs.foldl Net.deliver n).lost j = (ofOthers j xs).length + n.lost j ∧
        ((n.queue j).length ≤ n.room j → (n.queue j ++ got).length ≤ n.room j) ∧
        ((n.queue j).length + (ofOthers j xs).length ≤ n.room j → got = ofOthers j xs) := by
  induction xs generalizing n with
  | nil => exact ⟨rfl, rfl, by simp, [], by simp, List.Sublist.refl _, rfl, by simp, fun _ => rfl⟩
  | cons x xs ih =>
    obtain ⟨h1, h2, h3, got, g1, g2, g3, g4, g5⟩ := ih (n.deliver x)
    rw [List.foldl_cons]
    refine ⟨h1, h2, by rw [h3]; show n.wire ++ [x] ++ xs = _; simp, ?_⟩
    have hr : (n.deliver x).room j = n.room j := rfl
    by_cases hx : x.1 = some j
    · have hf : n.fits x j = false := by simp [Net.fits, hx]
      have hq : (n.deliver x).queue j = n.queue j := by simp [Net.deliver, hf]
      have hl : (n.deliver x).lost j = n.lost j := by simp [Net.deliver, hx]
      have ho : ofOthers j (x :: xs) = ofOthers j xs := by simp [ofOthers, hx]
      rw [hq, hr] at g4 g5
      rw [hq] at g1
      rw [hl] at g3
      rw [ho]
      exact ⟨got, g1, g2, g3, g4, g5⟩
    · have ho : ofOthers j (x :: xs) = x.2 :: ofOthers j xs := by simp [ofOthers, hx]
      rw [ho]
      by_cases hroom : (n.queue j).length < n.room j
      · have hf : n.fits x j = true := by simp [Net.fits, hx, hroom]
        have hq : (n.deliver x).queue j = n.queue j ++ [x.2] := by simp [Net.deliver, hf]
        have hl : (n.deliver x).lost j = n.lost j := by simp [Net.deliver, hf]
        rw [hq, hr, List.length_append, List.length_singleton] at g4 g5
        rw [hq] at g1
        rw [hl] at g3
        refine ⟨x.2 :: got, by rw [g1]; simp, g2.cons_cons _, by rw [List.length_cons, List.length_cons]; omega, fun _ => ?_, fun h => ?_⟩
        · have := g4 (by omega)
          simpa using this
        · rw [List.length_cons] at h
          rw [g5 (by omega)]
      · have hf : n.fits x j = false := by simp [Net.fits, hroom]
        have hq : (n.deliver x).queue j = n.queue j := by simp [Net.deliver, hf]
        have hl : (n.deliver x).lost j = n.lost j + 1 := by simp [Net.deliver, hf, hx]
        rw [hq, hr] at g4
        rw [hq] at g1
        rw [hl] at g3
        refine ⟨got, g1, g2.trans (List.sublist_cons_self _ _), by rw [List.length_cons]; omega, g4, fun h => ?_⟩
        rw [List.length_cons] at h
        omega

/-- What holds of node `j` after any history `ops`. -/
structure NetInv (n0 n : Net) (ops : List BusOp) (j : Nat) : Prop where
  room : n.room = n0.room
  bound : (n.queue j).length ≤ n.room j
  hist : ∃ hist : List (Op ⊕ CanFrame), (n0.nodes j).run (hist.map deed) = .ok (n.nodes j) ∧
    hist.filterMap Sum.getLeft? = callsOf j ops ∧
    (hist.filterMap Sum.getRight? ++ n.queue j).Sublist (ofOthers j n.wire) ∧
    (hist.filterMap Sum.getRight? ++ n.queue j).length + n.lost j = (ofOthers j n.wire).length

theorem run_snoc {w v u : World} {ops : List Op} {op : Op} (h : w.run ops = .ok v) (h' : v.step op = .ok u) : w.run (ops ++ [op]) = .ok u := by
  unfold World.run at h ⊢
  rw [List.foldlM_append, h]
  show Except.bind (v.step op) (fun u => .ok u) = _
  rw [h']
  rfl

theorem netInv_step (n0 n n' : Net) (done : List BusOp) (o : BusOp) (j : Nat) (h : NetInv n0 n done j) (hs : n.step o = .ok n') :
    NetInv n0 n' (done ++ [o]) j := by
  obtain ⟨hist, h1, h2, h3, h4⟩ := h.hist
  have hcalls : callsOf j (done ++ [o]) = callsOf j done ++ callsOf j [o] := by simp [callsOf]
  have put : ∀ (m : Net) (xs : List (Option Nat × CanFrame)) (hist' : List (Op ⊕ CanFrame)), m.room = n.room → m.wire = n.wire → m.queue = n.queue →
      m.lost = n.lost → (n0.nodes j).run (hist'.map deed) = .ok (m.nodes j) → hist'.filterMap Sum.getLeft? = callsOf j (done ++ [o]) →
      hist'.filterMap Sum.getRight? = hist.filterMap Sum.getRight? → NetInv n0 (xs.foldl Net.deliver m) (done ++ [o]) j := by
    intro m xs hist' e1 e2 e3 e4 e5 e6 e7
    obtain ⟨k1, k2, k3, got, g1, g2, g3, g4, -⟩ := deliver_all xs m j
    rw [e1, e3] at g4
    rw [e3] at g1
    rw [e4] at g3
    refine ⟨by rw [k2, e1]; exact h.room, by rw [g1, k2, e1]; exact g4 h.bound, hist', by rw [k1]; exact e5, e6, ?_, ?_⟩
    · rw [e7, g1, k3, e2, ofOthers_append, ← List.append_assoc]
      exact h3.append g2
    · rw [e7, g1, k3, e2, ofOthers_append, ← List.append_assoc, List.length_append, List.length_append (as := ofOthers j n.wire)]
      omega
  cases o with
  | call i op =>
    obtain ⟨w, hw, e⟩ := bind_ok hs
    injection e with e
    subst e
    by_cases hij : i = j
    · subst hij
      refine put _ _ (hist ++ [.inl op]) rfl rfl rfl rfl ?_ ?_ ?_
      · rw [List.map_append]
        refine run_snoc h1 ?_
        rw [show (n.setNode i w).nodes i = w from if_pos rfl]
        exact hw
      · rw [List.filterMap_append, h2, hcalls]
        simp [callsOf]
      · simp [List.filterMap_append]
    · refine put _ _ hist rfl rfl rfl rfl ?_ ?_ rfl
      · rw [show (n.setNode i w).nodes j = n.nodes j from if_neg (fun e => hij e.symm)]
        exact h1
      · rw [h2, hcalls]
        simp [callsOf, hij]
  | receive i =>
    have hnone : callsOf j [BusOp.receive i] = [] := rfl
    simp only [Net.step] at hs
    split at hs
    · cases hs
      exact ⟨h.room, h.bound, hist, h1, by rw [h2, hcalls, hnone, List.append_nil], h3, h4⟩
    · next f q hq =>
      obtain ⟨w, hw, e⟩ := bind_ok hs
      injection e with e
      subst e
      by_cases hij : i = j
      · subst hij
        have e1 : (if i = i then q else n.queue i) = q := if_pos rfl
        have e2 : (if i = i then w else n.nodes i) = w := if_pos rfl
        refine ⟨h.room, ?_, hist ++ [.inr f], ?_, ?_, ?_, ?_⟩
        · have := h.bound
          rw [hq, List.length_cons] at this
          show (if i = i then q else n.queue i).length ≤ n.room i
          rw [e1]
          omega
        · rw [List.map_append]
          refine run_snoc h1 ?_
          show _ = Except.ok (if i = i then w else n.nodes i)
          rw [e2]
          exact hw
        · rw [List.filterMap_append, h2, hcalls, hnone]
          simp
        · show (List.filterMap _ _ ++ (if i = i then q else n.queue i)).Sublist (ofOthers i n.wire)
          rw [e1, List.filterMap_append]
          rw [hq] at h3
          simpa using h3
        · show (List.filterMap _ _ ++ (if i = i then q else n.queue i)).length + n.lost i = (ofOthers i n.wire).length
          rw [e1, List.filterMap_append]
          rw [hq] at h4
          simpa using h4
      · have e1 : (if j = i then q else n.queue j) = n.queue j := if_neg (fun e => hij e.symm)
        refine ⟨h.room, ?_, hist, ?_, by rw [h2, hcalls, hnone, List.append_nil], ?_, ?_⟩
        · show (if j = i then q else n.queue j).length ≤ n.room j
          rw [e1]; exact h.bound
        · show _ = Except.ok (if j = i then w else n.nodes j)
          rw [if_neg (fun e => hij e.symm)]
          exact h1
        · show (_ ++ (if j = i then q else n.queue j)).Sublist (ofOthers j n.wire)
          rw [e1]; exact h3
        · show (_ ++ (if j = i then q else n.queue j)).length + n.lost j = (ofOthers j n.wire).length
          rw [e1]; exact h4
  | foreign f =>
    injection hs with hs
    subst hs
    exact put n [(none, f)] hist rfl rfl rfl rfl h1 (by rw [h2, hcalls]; simp [callsOf]) rfl

theorem netInv_run (n0 : Net) (j : Nat) (ops : List BusOp) : ∀ (n n' : Net) (done : List BusOp), NetInv n0 n done j → n.run ops = .ok n' →
    NetInv n0 n' (done ++ ops) j := by
  induction ops with
  | nil => intro n n' done h hr; cases hr; rw [List.append_nil]; exact h
  | cons o ops ih =>
    intro n n' done h hr
    obtain ⟨m, h1, h2⟩ := bind_ok (show (n.step o >>= fun c => c.run ops) = .ok n' from hr)
    have := ih m n' (done ++ [o]) (netInv_step n0 n m done o j h h1) h2
    rw [List.append_assoc] at this
    exact this

theorem netInv_fresh (n0 : Net) (h0 : FreshNet n0) (j : Nat) : NetInv n0 n0 [] j :=
  ⟨rfl, by rw [h0.queue]; exact Nat.zero_le _, [], rfl, rfl, by rw [h0.queue]; exact List.nil_sublist _, by rw [h0.queue, h0.lost, h0.wire]; rfl⟩

/-- C106. In every history of any calls, on a bus whose nodes have receive buffers of any sizes: the program of a node has done what its
application called and has handled frames of the others, each at most once and in the order of the bus. Those and the ones in its buffer are
all but as many as were lost; if none was lost they are all. -/
theorem C106_history (n0 n : Net) (h0 : FreshNet n0) (ops : List BusOp) (h : n0.run ops = .ok n) (j : Nat) :
    ∃ hist : List (Op ⊕ CanFrame), (n0.nodes j).run (hist.map deed) = .ok (n.nodes j) ∧ hist.filterMap Sum.getLeft? = callsOf j ops ∧
      (hist.filterMap Sum.getRight? ++ n.queue j).Sublist (ofOthers j n.wire) ∧
      (hist.filterMap Sum.getRight?).length + (n.queue j).length + n.lost j = (ofOthers j n.wire).length ∧
      (n.queue j).length ≤ n0.room j ∧
      (n.lost j = 0 → hist.filterMap Sum.getRight? ++ n.queue j = ofOthers j n.wire) := by
  have hi := netInv_run n0 j ops n0 n [] (netInv_fresh n0 h0 j) h
  obtain ⟨hist, h1, h2, h3, h4⟩ := hi.hist
  refine ⟨hist, h1, h2, h3, by rw [List.length_append] at h4; exact h4, by rw [← hi.room]; exact hi.bound, fun hl => ?_⟩
  exact h3.eq_of_length (by omega)

/-! ## What is on the bus -/

/-- The frames of a wire that node `j` sent (`none`: the other devices). -/
def Spec.sentBy (j : Option Nat) (wire : List (Option Nat × CanFrame)) : List CanFrame := (wire.filter (fun x => x.1 = j)).map (·.2)

/-- The frames the other devices send in a history. -/
def Spec.foreignOf (ops : List BusOp) : List CanFrame :=
  ops.filterMap (fun o => match o with
    | .foreign f => some f
    | _ => none)

theorem sentBy_append (j : Option Nat) (a b : List (Option Nat × CanFrame)) : sentBy j (a ++ b) = sentBy j a ++ sentBy j b := by
  simp [sentBy]

theorem sentBy_own (i j : Option Nat) (fs : List CanFrame) : sentBy j (fs.map (fun f => (i, f))) = if i = j then fs else [] := by
  by_cases h : i = j
  · subst h
    rw [if_pos rfl, sentBy, List.filter_eq_self.mpr (by intro x hx; obtain ⟨f, -, rfl⟩ := List.mem_map.mp hx; simp), List.map_map]
    exact List.map_id fs
  · simp [sentBy, h]

theorem wire_step (n n' : Net) (o : BusOp) (h : n.step o = .ok n') :
    (∀ j, ∃ new, (n'.nodes j).log = (n.nodes j).log ++ new ∧ sentBy (some j) n'.wire = sentBy (some j) n.wire ++ Bus.sent new) ∧
      sentBy none n'.wire = sentBy none n.wire ++ foreignOf [o] := by
  cases o with
  | call i op =>
    obtain ⟨w, hw, e⟩ := bind_ok h
    injection e with e
    subst e
    obtain ⟨new, hl, -⟩ := step_atMost _ _ _ hw
    have hd := deliver_all ((Bus.sent (w.log.drop (n.nodes i).log.length)).map (fun f => (some i, f))) (n.setNode i w) 0
    refine ⟨fun j => ?_, ?_⟩
    · by_cases hj : j = i
      · subst hj
        refine ⟨new, ?_, ?_⟩
        · rw [hd.1]
          show (if j = j then w else _ : World).log = _
          rw [if_pos rfl, hl]
        · rw [hd.2.2.1, sentBy_append, sentBy_own, if_pos rfl, hl, List.drop_left]
          rfl
      · refine ⟨[], ?_, ?_⟩
        · rw [hd.1]
          show (if j = i then w else _ : World).log = _
          rw [if_neg hj, List.append_nil]
        · rw [hd.2.2.1, sentBy_append, sentBy_own, if_neg (by intro x; injection x with x; exact hj x.symm)]
          rfl
    · rw [hd.2.2.1, sentBy_append, sentBy_own, if_neg (by intro x; cases x)]
      rfl
  | receive i =>
    simp only [Net.step] at h
    split at h
    · cases h
      exact ⟨fun j => ⟨[], by simp, by simp [Bus.sent]⟩, by simp [foreignOf]⟩
    · obtain ⟨w, hw, e⟩ := bind_ok h
      injection e with e
      subst e
      obtain ⟨new, hl, hn⟩ := step_atMost _ _ _ hw
      have hz : Bus.sent new = [] := List.length_eq_zero_iff.mp (Nat.le_zero.mp hn)
      refine ⟨fun j => ?_, by simp [foreignOf, Net.setNode]⟩
      by_cases hj : j = i
      · subst hj
        refine ⟨new, ?_, by rw [hz, List.append_nil]; rfl⟩
        show (if j = j then w else _ : World).log = _
        rw [if_pos rfl, hl]
      · refine ⟨[], ?_, by simp [Bus.sent, Net.setNode]⟩
        show (if j = i then w else _ : World).log = _
        rw [if_neg hj, List.append_nil]
  | foreign f =>
    injection h with h
    subst h
    refine ⟨fun j => ⟨[], by simp [Net.deliver], ?_⟩, ?_⟩
    · show sentBy (some j) (n.wire ++ [(none, f)]) = _
      simp [sentBy, Bus.sent]
    · show sentBy none (n.wire ++ [(none, f)]) = _
      simp [sentBy, foreignOf]

/-- C106. The bus carries what was sent: of each node exactly the frames its station gave to the tx callback, each once and in this order, and the
frames of the other devices. -/
theorem C106_wire (n0 n : Net) (ops : List BusOp) (h : n0.run ops = .ok n) (hw : n0.wire = []) :
    (∀ j, ∃ new, (n.nodes j).log = (n0.nodes j).log ++ new ∧ sentBy (some j) n.wire = Bus.sent new) ∧ sentBy none n.wire = foreignOf ops := by
  have key : ∀ (ops : List BusOp) (m : Net), m.run ops = .ok n →
      (∀ j, ∃ new, (n.nodes j).log = (m.nodes j).log ++ new ∧ sentBy (some j) n.wire = sentBy (some j) m.wire ++ Bus.sent new) ∧
        sentBy none n.wire = sentBy none m.wire ++ foreignOf ops := by
    intro ops
    induction ops with
    | nil =>
      intro m h
      cases h
      exact ⟨fun j => ⟨[], by simp, by simp [Bus.sent]⟩, by simp [foreignOf]⟩
    | cons o ops ih =>
      intro m h
      obtain ⟨u, h1, h2⟩ := bind_ok (show (m.step o >>= fun c => c.run ops) = .ok n from h)
      obtain ⟨a, b⟩ := wire_step m u o h1
      obtain ⟨c, d⟩ := ih u h2
      refine ⟨fun j => ?_, ?_⟩
      · obtain ⟨x, x1, x2⟩ := a j
        obtain ⟨y, y1, y2⟩ := c j
        exact ⟨x ++ y, by rw [y1, x1, List.append_assoc], by rw [y2, x2, sent_append, List.append_assoc]⟩
      · rw [d, b, List.append_assoc]
        congr 1
        unfold foreignOf
        rw [← List.filterMap_append]
        rfl
  have := key ops n0 h
  rw [hw] at this
  simpa [sentBy] using this

/-! ## Commands -/

/-- What holds if applications only give commands. -/
structure CommandNet (n0 n : Net) (ops : List BusOp) : Prop where
  station : ∀ j, (n.nodes j).station = (n0.nodes j).station
  queued : ∀ j, ∀ f ∈ n.queue j, Plain f
  plain : ∀ x ∈ n.wire, Plain x.2
  wire : ∀ j, n.wire.flatMap (heardAt (n0.nodes j).station.callbacks j) = ops.flatMap (hearsOf (n0.nodes j).station.callbacks j)

/-- Every station is begun with a tx and an engine callback and without a registered parser, and nothing was told yet. -/
structure Spec.CommandReady (n : Net) : Prop extends FreshNet n where
  log : ∀ j, (n.nodes j).log = []
  tx : ∀ j, (n.nodes j).station.callbacks.tx.isSome = true
  engine : ∀ j, (n.nodes j).station.callbacks.engine.isSome = true
  parser : ∀ j, (n.nodes j).station.callbacks.configData = none

theorem mem_ofOthers {j : Nat} {wire : List (Option Nat × CanFrame)} {f : CanFrame} (h : f ∈ ofOthers j wire) : ∃ s, (s, f) ∈ wire := by
  obtain ⟨⟨s, g⟩, h1, rfl⟩ := List.mem_map.mp h
  exact ⟨s, (List.mem_filter.mp h1).1⟩

theorem commandNet_step (n0 n : Net) (done : List BusOp) (o : BusOp) (h0 : CommandReady n0) (h : CommandNet n0 n done)
    (h1 : ∀ i op, o = .call i op → isCommand op = true) (h2 : ∀ f, o = .foreign f → f.data.dlc.toNat ≤ 8) :
    ∃ n', n.step o = .ok n' ∧ CommandNet n0 n' (done ++ [o]) := by
  have put : ∀ (m : Net) (xs : List (Option Nat × CanFrame)), (∀ j, (m.nodes j).station = (n.nodes j).station) → m.wire = n.wire → m.queue = n.queue →
      (∀ x ∈ xs, Plain x.2) →
      (∀ j, xs.flatMap (heardAt (n0.nodes j).station.callbacks j) = hearsOf (n0.nodes j).station.callbacks j o) →
      CommandNet n0 (xs.foldl Net.deliver m) (done ++ [o]) := by
    intro m xs e1 e2 e3 hp hx
    refine ⟨fun j => ?_, fun j f hf => ?_, fun x hm => ?_, fun j => ?_⟩
    · rw [(deliver_all xs m j).1, e1]; exact h.station j
    · obtain ⟨-, -, -, got, g1, g2, -⟩ := deliver_all xs m j
      rw [g1, e3] at hf
      rcases List.mem_append.mp hf with hf | hf
      · exact h.queued j f hf
      · obtain ⟨s, hs⟩ := mem_ofOthers (g2.subset hf)
        exact hp (s, f) hs
    · rw [(deliver_all xs m 0).2.2.1, e2] at hm
      rcases List.mem_append.mp hm with hm | hm
      · exact h.plain x hm
      · exact hp x hm
    · rw [(deliver_all xs m 0).2.2.1, e2, List.flatMap_append, h.wire j, hx j, List.flatMap_append]
      simp
  cases o with
  | call i op =>
    obtain ⟨cb, hcb⟩ := Option.isSome_iff_exists.mp (h0.tx i)
    obtain ⟨fs, ht⟩ := command_transmits (n.nodes i).station cb (by rw [h.station]; exact hcb) op (h1 i op rfl)
    refine ⟨(fs.map (fun f => (some i, f))).foldl Net.deliver (n.setNode i ((n.nodes i).logAll (fs.map (fun f => .call (.tx cb f))))), ?_, ?_⟩
    · simp only [Net.step, ht.step _ rfl, bind, Except.bind, World.logAll, List.drop_left, sent_tx]
    · refine put _ _ (fun j => ?_) rfl rfl ?_ (fun j => ?_)
      · show (if j = i then _ else _ : World).station = _
        split
        · next e => subst e; rfl
        · rfl
      · intro x hx
        obtain ⟨f, hf, rfl⟩ := List.mem_map.mp hx
        exact ht.plain f hf
      · rw [List.flatMap_map]
        simp only [hearsOf, heardAt]
        by_cases e : i = j
        · subst e; simp
        · rw [if_neg e, ← ht.heard]
          congr 1
          funext f
          rw [if_neg (by intro x; injection x with x; exact e x)]
  | receive i =>
    have wire : ∀ j, n.wire.flatMap (heardAt (n0.nodes j).station.callbacks j) =
        (done ++ [BusOp.receive i]).flatMap (hearsOf (n0.nodes j).station.callbacks j) := by
      intro j
      rw [List.flatMap_append, h.wire j]
      simp [hearsOf]
    cases hq : n.queue i with
    | nil => exact ⟨n, by simp only [Net.step, hq], h.station, h.queued, h.plain, wire⟩
    | cons f q =>
      have hh := handle_plain (n.nodes i) f (h.queued i f (by rw [hq]; exact List.mem_cons_self)) (by rw [h.station]; exact h0.engine i)
        (by rw [h.station]; exact h0.parser i)
      refine ⟨{ n.setNode i ((n.nodes i).logAll ((reaction (n.nodes i).station.callbacks false f).map .call)) with
          queue := fun m => if m = i then q else n.queue m }, by simp only [Net.step, hq, hh, bind, Except.bind], fun j => ?_, fun j g hg => ?_, h.plain, wire⟩
      · show (if j = i then _ else _ : World).station = _
        split
        · next e => subst e; exact h.station j
        · exact h.station j
      · have hg : g ∈ (if j = i then q else n.queue j) := hg
        split at hg
        · exact h.queued i g (by rw [hq]; exact List.mem_cons_of_mem _ hg)
        · exact h.queued j g hg
  | foreign f =>
    refine ⟨n.deliver (none, f), rfl, put n [(none, f)] (fun _ => rfl) rfl rfl ?_ (fun j => ?_)⟩
    · intro x hx
      rw [List.mem_singleton.mp hx]
      exact plain_of_short (h2 f rfl)
    · simp [hearsOf, heardAt]

theorem commandNet_run (n0 : Net) (h0 : CommandReady n0) (ops : List BusOp) : ∀ (n : Net) (done : List BusOp), CommandNet n0 n done → CommandsOnly ops →
    ∃ n', n.run ops = .ok n' ∧ CommandNet n0 n' (done ++ ops) := by
  induction ops with
  | nil => intro n done h _; exact ⟨n, rfl, by rw [List.append_nil]; exact h⟩
  | cons o ops ih =>
    intro n done h hc
    obtain ⟨c, hs, hi⟩ := commandNet_step n0 n done o h0 h (by rintro i op rfl; exact hc.1 i op (List.mem_cons_self ..))
      (by rintro f rfl; exact hc.2 f (List.mem_cons_self ..))
    obtain ⟨d, hd, hj⟩ := ih c _ hi ⟨fun i op hm => hc.1 i op (List.mem_cons_of_mem _ hm), fun f hm => hc.2 f (List.mem_cons_of_mem _ hm)⟩
    refine ⟨d, ?_, by rw [List.append_assoc] at hj; exact hj⟩
    show (n.step o >>= fun c => c.run ops) = _
    rw [hs]
    exact hd

/-- What a program that gives commands and handles frames is told. -/
theorem told_hist (s : Station) (htx : s.callbacks.tx.isSome = true) (he : s.callbacks.engine.isSome = true) (hc : s.callbacks.configData = none)
    (hist : List (Op ⊕ CanFrame)) (hl : ∀ op ∈ hist.filterMap Sum.getLeft?, isCommand op = true)
    (hr : ∀ f ∈ hist.filterMap Sum.getRight?, Plain f) (w v : World) (hw : w.station = s) (h : w.run (hist.map deed) = .ok v) :
    eventsIn v.log = eventsIn w.log ++ (hist.filterMap Sum.getRight?).flatMap (fun f => (reaction s.callbacks false f).flatMap eventOf) := by
  induction hist generalizing w with
  | nil => cases h; simp
  | cons x hist ih =>
    obtain ⟨u, h1, h2⟩ := bind_ok (show (w.step (deed x) >>= fun c => c.run (hist.map deed)) = .ok v from h)
    cases x with
    | inl op =>
      obtain ⟨cb, hcb⟩ := Option.isSome_iff_exists.mp htx
      obtain ⟨fs, ht⟩ := command_transmits s cb hcb op (hl op (by simp))
      have e : u = w.logAll (fs.map (fun f => .call (.tx cb f))) := by
        have := h1.symm.trans (ht.step w hw)
        injection this
      subst e
      rw [ih (fun op h => hl op (by simp only [List.filterMap_cons, Sum.getLeft?]; exact List.mem_cons_of_mem _ h))
        (fun f h => hr f (by simpa using h)) (w.logAll (fs.map (fun f => .call (.tx cb f)))) hw h2]
      simp only [World.logAll, told_append, told_tx, List.append_nil]
      rfl
    | inr f =>
      have hh := handle_plain w f (hr f (by simp)) (by rw [hw]; exact he) (by rw [hw]; exact hc)
      have e : u = w.logAll ((reaction w.station.callbacks false f).map .call) := by
        have := h1.symm.trans hh
        injection this
      subst e
      rw [ih (fun op h => hl op (by simpa using h))
        (fun f h => hr f (by simp only [List.filterMap_cons, Sum.getRight?]; exact List.mem_cons_of_mem _ h)) (w.logAll ((reaction w.station.callbacks false f).map .call)) hw h2]
      simp only [World.logAll, told_append, told_calls, hw]
      simp

theorem sublist_flatMap {α β : Type} {l m : List α} (h : l.Sublist m) (f : α → List β) : (l.flatMap f).Sublist (m.flatMap f) := by
  induction h with
  | slnil => exact List.Sublist.refl _
  | cons a _ ih => rw [List.flatMap_cons]; exact ih.trans (List.sublist_append_right _ _)
  | cons_cons a _ ih => rw [List.flatMap_cons, List.flatMap_cons]; exact (List.Sublist.refl _).append ih

theorem ofOthers_heard (cbs : Callbacks) (j : Nat) (wire : List (Option Nat × CanFrame)) :
    (ofOthers j wire).flatMap (fun f => (reaction cbs false f).flatMap eventOf) = wire.flatMap (heardAt cbs j) := by
  induction wire with
  | nil => rfl
  | cons x wire ih =>
    rw [List.flatMap_cons, ← ih]
    by_cases hx : x.1 = some j
    · simp [ofOthers, heardAt, hx]
    · simp [ofOthers, heardAt, hx]

/-- C106. Any number of stations, whose applications give commands, and other devices, on a bus with receive buffers of any sizes: no station
fails; each application is told of what the commands of the others and the frames of the other devices say, in the order of sending, nothing
twice and nothing else; only what is lost or still in its buffer is missing. If nothing was lost and the buffer is empty it has been told
everything. -/
theorem C106_commands (n0 : Net) (h0 : CommandReady n0) (ops : List BusOp) (hc : CommandsOnly ops) :
    ∃ n, n0.run ops = .ok n ∧ ∀ j,
      (eventsIn (n.nodes j).log).Sublist (ops.flatMap (hearsOf (n0.nodes j).station.callbacks j)) ∧
      (n.lost j = 0 → n.queue j = [] → eventsIn (n.nodes j).log = ops.flatMap (hearsOf (n0.nodes j).station.callbacks j)) := by
  obtain ⟨n, hn, hi⟩ := commandNet_run n0 h0 ops n0 []
    ⟨fun _ => rfl, fun j f hf => (by rw [h0.queue] at hf; cases hf), fun x hx => (by rw [h0.wire] at hx; cases hx), fun j => (by rw [h0.wire]; rfl)⟩ hc
  rw [List.nil_append] at hi
  refine ⟨n, hn, fun j => ?_⟩
  obtain ⟨hist, k1, k2, k3, k4, -, k5⟩ := C106_history n0 n h0.toFreshNet ops hn j
  have hplain : ∀ f ∈ hist.filterMap Sum.getRight?, Plain f := by
    intro f hf
    obtain ⟨s, hs⟩ := mem_ofOthers (k3.subset (List.mem_append_left _ hf))
    exact hi.plain (s, f) hs
  have hcmd : ∀ op ∈ hist.filterMap Sum.getLeft?, isCommand op = true := by
    intro op hop
    rw [k2] at hop
    obtain ⟨o, ho, e⟩ := List.mem_filterMap.mp hop
    cases o with
    | call i op' =>
      dsimp only at e
      split at e
      · injection e with e; subst e; exact hc.1 _ _ ho
      · cases e
    | receive i => cases e
    | foreign f => cases e
  have told := told_hist (n0.nodes j).station (h0.tx j) (h0.engine j) (h0.parser j) hist hcmd hplain _ _ rfl k1
  rw [h0.log] at told
  have told : eventsIn (n.nodes j).log = (hist.filterMap Sum.getRight?).flatMap (fun f => (reaction (n0.nodes j).station.callbacks false f).flatMap eventOf) := told
  rw [told, ← hi.wire j, ← ofOthers_heard]
  refine ⟨sublist_flatMap ((List.sublist_append_left _ _).trans k3) _, fun hl hq => ?_⟩
  rw [← k5 hl, hq, List.append_nil]

/-! ## Enough room -/

/-- At every call and at every frame of another device there is room at node `j` for all that can be sent. -/
def Spec.KeepsUp (j : Nat) : Net → List BusOp → Prop
  | _, [] => True
  | n, o :: ops => (n.queue j).length + busLimit o ≤ n.room j ∧ ∀ n', n.step o = .ok n' → KeepsUp j n' ops

/-- C106. A node whose receive loop keeps up loses nothing, whatever the others do: it suffices that whenever somebody sends there is room for
the most frames the call can send (16 for the states of all functions, 3 for the request of an engine, ...). -/
theorem C106_room (j : Nat) (ops : List BusOp) (n n' : Net) (hk : KeepsUp j n ops) (h : n.run ops = .ok n') : n'.lost j = n.lost j := by
  induction ops generalizing n with
  | nil => cases h; rfl
  | cons o ops ih =>
    obtain ⟨m, h1, h2⟩ := bind_ok (show (n.step o >>= fun c => c.run ops) = .ok n' from h)
    rw [ih m (hk.2 m h1) h2]
    have put : ∀ (u : Net) (xs : List (Option Nat × CanFrame)), u.room = n.room → u.queue = n.queue → u.lost = n.lost → xs.length ≤ busLimit o →
        (xs.foldl Net.deliver u).lost j = n.lost j := by
      intro u xs e1 e2 e3 hx
      obtain ⟨-, -, -, got, -, -, g3, -, g5⟩ := deliver_all xs u j
      have hle : (ofOthers j xs).length ≤ xs.length := by
        unfold ofOthers
        rw [List.length_map]
        exact List.length_filter_le _ _
      have := hk.1
      rw [g5 (by rw [e1, e2]; omega), e3] at g3
      omega
    cases o with
    | call i op =>
      obtain ⟨w, hw, e⟩ := bind_ok h1
      injection e with e
      subst e
      obtain ⟨new, hl, hn⟩ := step_atMost _ _ _ hw
      refine put _ _ rfl rfl rfl ?_
      rw [hl, List.drop_left, List.length_map]
      exact hn
    | receive i =>
      simp only [Net.step] at h1
      split at h1
      · cases h1; rfl
      · obtain ⟨w, -, e⟩ := bind_ok h1
        injection e with e
        subst e
        rfl
    | foreign f =>
      injection h1 with h1
      subst h1
      exact put n [(none, f)] rfl rfl rfl (Nat.le_refl 1)

/-! ## Concrete installations -/

/-- The stations of `plainBus`, with room for two frames each. -/
def smallNet : Net := { nodes := plainBus.nodes, wire := [], room := fun _ => 2, queue := fun _ => [], lost := fun _ => 0 }

theorem smallNet_ready : CommandReady smallNet :=
  { wire := rfl, queue := fun _ => rfl, lost := fun _ => rfl, log := fun _ => rfl, tx := fun _ => rfl, engine := fun _ => rfl, parser := fun _ => rfl }

/-- A check of the outcome of a history, in a form that can be computed. -/
def netOutcome (n : Net) (ops : List BusOp) (p : Net → Bool) : Bool :=
  match n.run ops with
  | .ok c => p c
  | .error _ => false

/-- C106 is not vacuous, and `lost` cannot be left out: the application of node 0 asks for the states of all functions, and nodes 1 and 2 get the first
two of the sixteen requests only. -/
example : netOutcome smallNet [.call 0 (.requestAllFunctions { uid := 5#32 }), .receive 1]
    (fun c => c.wire.length = 16 ∧ c.lost 1 = 14 ∧ (c.queue 1).length = 1 ∧ c.lost 2 = 14 ∧ (c.queue 2).length = 2 ∧ c.lost 0 = 0) = true := by
  decide +kernel

/-- The history of `busCase`: node 2 takes what arrives in time and is told everything; node 1 takes nothing and loses one frame for good. -/
example : netOutcome smallNet busCase (fun c =>
    eventsIn (c.nodes 2).log = [.velocity 2 5#32 1000, .function 2 5#32 3 true, .allVelocity 2 0] ∧ c.lost 2 = 0 ∧ c.queue 2 = [] ∧
    (c.queue 1).length = 2 ∧ c.lost 1 = 1 ∧ eventsIn (c.nodes 1).log = []) = true := by decide +kernel

/-- An application that is told the last of three commands is not told the second: a command in the middle can be missing. -/
example : netOutcome smallNet
    [.call 0 (.sendVelocity { uid := 5#32 } 2000#16), .call 0 (.sendFunction { uid := 5#32 } 3#8 true), .call 0 (.sendFunction { uid := 5#32 } 4#8 true),
      .receive 1, .call 0 (.sendFunction { uid := 5#32 } 6#8 true), .receive 1, .receive 1]
    (fun c => eventsIn (c.nodes 1).log = [.velocity 2 5#32 1000, .function 2 5#32 3 true, .function 2 5#32 6 true] ∧ c.lost 1 = 1) = true := by
  decide +kernel

/-- Node 1 keeps up in a history in which it takes each frame before the next. -/
example : KeepsUp 1 smallNet [.call 0 (.sendVelocity { uid := 5#32 } 2000#16), .receive 1, .foreign { id := ⟨0x00000301#32⟩, data := { dlc := 5#8 } }] := by
  refine ⟨by decide +kernel, fun n' h => ⟨?_, fun n'' h' => ⟨?_, fun _ _ => trivial⟩⟩⟩
  · have e : (match smallNet.step (.call 0 (.sendVelocity { uid := 5#32 } 2000#16)) with
        | .ok c => decide ((c.queue 1).length + 0 ≤ c.room 1) | .error _ => false) = true := by decide +kernel
    rw [h] at e
    exact of_decide_eq_true e
  · have e : (match (smallNet.run [.call 0 (.sendVelocity { uid := 5#32 } 2000#16), .receive 1]) with
        | .ok c => decide ((c.queue 1).length + 1 ≤ c.room 1) | .error _ => false) = true := by decide +kernel
    have r : smallNet.run [.call 0 (.sendVelocity { uid := 5#32 } 2000#16), .receive 1] = .ok n'' := by
      show (smallNet.step _ >>= fun c => c.run _) = _
      rw [h]
      show (n'.step _ >>= fun c => .ok c) = _
      rw [h']
      rfl
    rw [r] at e
    exact of_decide_eq_true e

end RR32
