import Verif.Props.Overrun
import Verif.Props.Loss
import Verif.Props.Traffic

/-!
# C107: a download over a busy bus with receive buffers of limited size
-/

set_option autoImplicit false

namespace RR32

open Spec

namespace Spec

/-- A frame of a configuration data stream. -/
def inStream (f : CanFrame) : Bool := commandOf f = 0x21

/-- What node `j` has handled, in any order with calls of its application. -/
def handled (hist : List (Op ⊕ CanFrame)) : List CanFrame := hist.filterMap Sum.getRight?

/-- On a bus with receive buffers of any sizes, node `j` starts parser `p` for consumer `c`, asks for a file (`op`) and then gives commands only. The
other nodes and the other devices do anything, but the stream frames among what they send are those of `answer`, and none of their frames has
more than 8 bytes. -/
structure BusyDownload (n0 n : Net) (j p c : Nat) (op : Op) (ops : List BusOp) (answer : List CanFrame) : Prop where
  fresh : FreshNet n0
  sound : Sound (n0.nodes j)
  tx : ∃ tx, (n0.nodes j).station.callbacks.tx = some tx
  engine : (n0.nodes j).station.callbacks.engine.isSome = true
  parser : (n0.nodes j).station.callbacks.configData ≠ some p
  request : Requests (n0.nodes j) p op
  control : ∀ o ∈ callsOf j ops, isControl o = true
  run : n0.run (.call j (.parserStart p (some c)) :: .call j op :: ops) = .ok n
  answer : (ofOthers j n.wire).filter inStream = answer
  short : ∀ f ∈ ofOthers j n.wire, f.data.dlc.toNat ≤ 8

end Spec

theorem netInv_begin (m : Net) (j : Nat) (hq : m.queue j = []) (hl : m.lost j = 0) (hw : ofOthers j m.wire = []) : NetInv m m [] j :=
  ⟨rfl, by rw [hq]; exact Nat.zero_le _, [], rfl, rfl, by rw [hq]; exact List.nil_sublist _, by rw [hq, hl, hw]; rfl⟩

/-- Calls of the application of `j` put nothing into its own buffer. -/
theorem own_call (n n' : Net) (j : Nat) (op : Op) (h : n.step (.call j op) = .ok n') :
    (n.nodes j).step op = .ok (n'.nodes j) ∧ n'.queue j = n.queue j ∧ n'.lost j = n.lost j ∧ ofOthers j n'.wire = ofOthers j n.wire ∧
      n'.room = n.room := by
  obtain ⟨w, hw, e⟩ := bind_ok h
  injection e with e
  subst e
  obtain ⟨d1, d2, d3, got, g1, g2, g3, -⟩ := deliver_all ((Bus.sent (w.log.drop (n.nodes j).log.length)).map (fun f => (some j, f))) (n.setNode j w) j
  rw [ofOthers_own] at g2 g3
  have e : got = [] := List.sublist_nil.mp g2
  subst e
  refine ⟨?_, by rw [g1, List.append_nil]; rfl, by simp only [List.length_nil, Nat.zero_add] at g3; exact g3, by rw [d3, ofOthers_append, ofOthers_own, List.append_nil]; rfl, d2⟩
  rw [d1]
  show _ = Except.ok (if j = j then w else _)
  rw [if_pos rfl]
  exact hw

theorem filter_hist (hist : List (Op ⊕ CanFrame)) (hl : ∀ op ∈ hist.filterMap Sum.getLeft?, isControl op = true)
    (hr : ∀ f ∈ handled hist, f.data.dlc.toNat ≤ 8) :
    (hist.map deed).filter (fun o => !isControl o) = ((handled hist).filter inStream).map .handle := by
  induction hist with
  | nil => rfl
  | cons x hist ih =>
    cases x with
    | inl op =>
      have h1 : isControl op = true := hl op List.mem_cons_self
      have h2 := ih (fun op h => hl op (List.mem_cons_of_mem _ h)) hr
      rw [List.map_cons, List.filter_cons_of_neg (by show ¬ (!isControl op) = true; rw [h1]; simp), h2]
      rfl
    | inr f =>
      have h1 : f.data.dlc.toNat ≤ 8 := hr f List.mem_cons_self
      have h2 := ih hl (fun g h => hr g (List.mem_cons_of_mem _ h))
      have h3 : handled (.inr f :: hist) = f :: handled hist := rfl
      rw [h3, List.map_cons]
      by_cases hc : commandOf f = 0x21
      · rw [List.filter_cons_of_pos (by show (!isControl (.handle f)) = true; simp [isControl, hc]),
          List.filter_cons_of_pos (by simp [inStream, hc]), h2]
        rfl
      · rw [List.filter_cons_of_neg (by show ¬ (!isControl (.handle f)) = true; simp [isControl, hc, h1]),
          List.filter_cons_of_neg (by simp [inStream, hc]), h2]

/-- What the program of the node did. -/
theorem busy_hist {n0 n : Net} {j p c : Nat} {op : Op} {ops : List BusOp} {answer : List CanFrame} (h : BusyDownload n0 n j p c op ops answer) :
    ∃ (v : World) (hist : List (Op ⊕ CanFrame)), (n0.nodes j).run [.parserStart p (some c), op] = .ok v ∧ v.run (hist.map deed) = .ok (n.nodes j) ∧
      (handled hist ++ n.queue j).Sublist (ofOthers j n.wire) ∧
      (handled hist).length + (n.queue j).length + n.lost j = (ofOthers j n.wire).length ∧
      (hist.map deed).filter (fun o => !isControl o) = ((handled hist).filter inStream).map .handle ∧
      (∀ f ∈ handled hist, f.data.dlc.toNat ≤ 8) ∧ ((handled hist).filter inStream).Sublist answer := by
  obtain ⟨n1, a1, hr⟩ := bind_ok (show (n0.step _ >>= fun c => c.run _) = .ok n from h.run)
  obtain ⟨n2, a2, hr⟩ := bind_ok (show (n1.step _ >>= fun c => c.run _) = .ok n from hr)
  obtain ⟨b1, b2, b3, b4, -⟩ := own_call n0 n1 j _ a1
  obtain ⟨c1, c2, c3, c4, -⟩ := own_call n1 n2 j _ a2
  have inv := netInv_run n2 j ops n2 n [] (netInv_begin n2 j (by rw [c2, b2]; exact h.fresh.queue j) (by rw [c3, b3]; exact h.fresh.lost j)
    (by rw [c4, b4, h.fresh.wire]; rfl)) hr
  obtain ⟨hist, k1, k2, k3, k4⟩ := inv.hist
  rw [List.nil_append] at k2
  have hhandled : (handled hist).Sublist (ofOthers j n.wire) := (List.sublist_append_left _ _).trans k3
  have hle : ∀ f ∈ handled hist, f.data.dlc.toNat ≤ 8 := fun f hf => h.short f (hhandled.subset hf)
  exact ⟨n2.nodes j, hist, run_snoc (ops := [.parserStart p (some c)]) (run_snoc (ops := []) rfl b1) c1, k1, k3,
    by rw [List.length_append] at k4; exact k4, filter_hist hist (fun o ho => h.control o (by rw [← k2]; exact ho)) hle, hle,
    by rw [← h.answer]; exact hhandled.filter _⟩

/-- Packets handled begin with a whole stream exactly if they are the whole answer. -/
theorem whole_handled {first : CanFrame} {ds hs : List CanFrame} (hwhole : Whole ((first :: ds).map (·.data))) (k6 : (hs.filter inStream).Sublist (first :: ds)) :
    (∃ pre, pre <+: (hs.filter inStream).map (·.data) ∧ Whole pre) ↔ hs.filter inStream = first :: ds := by
  constructor
  · rintro ⟨pre, g1, g2⟩
    refine Classical.byContradiction fun hne => ?_
    refine lost_not_whole (l := (hs.filter inStream).map (·.data)) (rest := []) hwhole (k6.map _) ?_ ?_ (by simp) pre (by simpa using g1) g2
    · intro e
      rw [e] at g1
      rw [List.prefix_nil.mp g1] at g2
      exact g2
    · intro e
      refine hne (k6.eq_of_length ?_)
      have := congrArg List.length e
      simpa using this
  · intro e
    exact ⟨_, List.prefix_refl _, by rw [e]; exact hwhole⟩

/-- C107. The consumer of a download over a busy bus is told `complete` exactly if the receive loop has handled all frames of the answer, so never if
one of them was lost; and an end-of-stream callback of a consumer of the library is called with `complete` only then. -/
theorem C107_complete (n0 n : Net) (j p c : Nat) (op : Op) (ops : List BusOp) (first : CanFrame) (ds : List CanFrame)
    (h : BusyDownload n0 n j p c op ops (first :: ds)) (hi : ((n0.nodes j).consumers c).Initialised) (hwhole : Whole ((first :: ds).map (·.data))) :
    ∃ (v : World) (hist : List (Op ⊕ CanFrame)) (new : List LogEntry), (n0.nodes j).run [.parserStart p (some c), op] = .ok v ∧ v.run (hist.map deed) = .ok (n.nodes j) ∧
      (handled hist ++ n.queue j).Sublist (ofOthers j n.wire) ∧
      (handled hist).length + (n.queue j).length + n.lost j = (ofOthers j n.wire).length ∧
      (n.nodes j).log.filter (fun e => !isCall e) = v.log.filter (fun e => !isCall e) ++ new ∧
      (.consumer ⟨c, .complete⟩ ∈ new ↔ (handled hist).filter inStream = first :: ds) ∧
      (∀ cb m seen, .streamEnd cb m true seen ∈ new → m = c ∧ (handled hist).filter inStream = first :: ds) := by
  obtain ⟨v, hist, k0, k1, k2, k3, k4, k5, k6⟩ := busy_hist h
  obtain ⟨tx, htx⟩ := h.tx
  obtain ⟨v', e1, e2⟩ := C62_station (n0.nodes j) h.sound tx htx h.engine p c hi h.parser op h.request ((handled hist).filter inStream)
    (fun f hf => by
      obtain ⟨f1, f2⟩ := List.mem_filter.mp hf
      exact ⟨of_decide_eq_true f2, by have := k5 f f1; omega⟩)
    (hist.map deed) k4
  have ev : v' = v := by
    rw [k0] at e1
    injection e1 with e1
    exact e1.symm
  subst ev
  obtain ⟨new, f1, f2, -, f4⟩ := e2 _ k1
  have hall := whole_handled hwhole k6
  refine ⟨v', hist, new, k0, k1, k2, k3, f1, f2.trans hall, fun cb m seen hm => ?_⟩
  obtain ⟨g1, g2⟩ := f4 cb m seen hm
  exact ⟨g1, hall.mp g2⟩

/-- If nothing was lost and nothing is left in the buffer, the whole answer has been handled. -/
theorem busy_all {n0 n : Net} {j p c : Nat} {op : Op} {ops : List BusOp} {answer : List CanFrame} (h : BusyDownload n0 n j p c op ops answer)
    (hl : n.lost j = 0) (hq : n.queue j = []) :
    ∃ (v : World) (hist : List (Op ⊕ CanFrame)), (n0.nodes j).run [.parserStart p (some c), op] = .ok v ∧ v.run (hist.map deed) = .ok (n.nodes j) ∧
      (hist.map deed).filter (fun o => !isControl o) = answer.map .handle := by
  obtain ⟨v, hist, k0, k1, k2, k3, k4, -, -⟩ := busy_hist h
  rw [hq, List.append_nil] at k2
  rw [hl, hq] at k3
  have : handled hist = ofOthers j n.wire := k2.eq_of_length (by simpa using k3)
  rw [this, h.answer] at k4
  exact ⟨v, hist, k0, k1, k4⟩

/-- C107. If nothing was lost, an engine file has arrived: the engine has the uid, the address and the protocol of the file, and nothing else has
changed in any engine. The consumer was given each entry of the file once and in order, and the end-of-stream callback was called once,
last, and saw this engine. `C106_room` says when nothing is lost. -/
theorem C107_engine (n0 n : Net) (j p c : Nat) (op : Op) (ops : List BusOp) (first : CanFrame) (rest : List CanFrame)
    (h : BusyDownload n0 n j p c op ops (first :: rest)) (hl : n.lost j = 0) (hq : n.queue j = []) (ht : Tidy (n0.nodes j))
    (hpf : 32 ≤ (n0.nodes j).pf.longBits) (e cb : Nat) (l : LocoConsumer) (hc : (n0.nodes j).consumers c = .loco l) (he : l.currentEngine = .obj e)
    (hcb : l.streamEndCallback = .obj cb) (hname : Terminated ((n0.nodes j).engines e).info.name)
    (hprot : ((n0.nodes j).engines e).protocol.length = 8) (items : List Item) (tail : Tail) (hw : WireStream first rest items tail)
    (uid address : U32) (protocol : List Byte) (hfile : EngineFile (entriesOf [] items) uid address protocol) :
    ((n.nodes j).engines e).data.uid = uid ∧ ((n.nodes j).engines e).data.address = ⟨address⟩ ∧
      cstr ((n.nodes j).engines e).protocol = .ok protocol ∧ ((n.nodes j).engines e).isFullDetailsKnown = true ∧
      ((n.nodes j).engines e).info.name = ((n0.nodes j).engines e).info.name ∧
      ((n.nodes j).engines e).data.velocity = ((n0.nodes j).engines e).data.velocity ∧
      ((n.nodes j).engines e).data.direction = ((n0.nodes j).engines e).data.direction ∧
      ((n.nodes j).engines e).data.functionBits = ((n0.nodes j).engines e).data.functionBits ∧
      (∀ m, m ≠ e → (n.nodes j).engines m = (n0.nodes j).engines m) ∧
      ∃ v, (n0.nodes j).run [.parserStart p (some c), op] = .ok v ∧
        (n.nodes j).log.filter (fun e => !isCall e) = v.log.filter (fun e => !isCall e) ++
          (calls c ((entriesOf [] items).map .entry ++ [.complete])).map .consumer ++ [.streamEnd cb c true (.engine ((n.nodes j).engines e))] := by
  obtain ⟨v, hist, k0, k1, k2⟩ := busy_all h hl hq
  obtain ⟨tx, htx⟩ := h.tx
  obtain ⟨v', u, g1, g2, g3⟩ := C61_engine_download (n0.nodes j) h.sound ht hpf tx htx h.engine p c e cb l hc he hcb hname hprot h.parser op h.request
    first rest items tail hw uid address protocol hfile (hist.map deed) k2
  have ev : v' = v := by
    rw [k0] at g1
    injection g1 with g1
    exact g1.symm
  subst ev
  have eu : u = n.nodes j := by
    rw [k1] at g2
    injection g2 with g2
    exact g2.symm
  subst eu
  obtain ⟨a1, a2, a3, a4, a5, a6, a7, a8, a9, a10⟩ := g3
  exact ⟨a1, a2, a3, a4, a5, a6, a7, a8, a9, v', k0, a10⟩

/-- C107. If nothing was lost, an engine list has arrived: the consumer has the first two names of the list and the number of engines. It was given each
entry of the file once and in order, and the end-of-stream callback was called once, last. -/
theorem C107_list (n0 n : Net) (j p c : Nat) (op : Op) (ops : List BusOp) (first : CanFrame) (rest : List CanFrame)
    (h : BusyDownload n0 n j p c op ops (first :: rest)) (hl : n.lost j = 0) (hq : n.queue j = []) (ht : Tidy (n0.nodes j))
    (hpf : 9 ≤ (n0.nodes j).pf.longBits) (cb : Nat) (l : LocoListConsumer) (hc : (n0.nodes j).consumers c = .list l) (hempty : Shows l [])
    (hcb : l.streamEndCallback = .obj cb) (items : List Item) (tail : Tail) (hw : WireStream first rest items tail)
    (ns : List (List Byte)) (count : Byte) (hfile : ListFile (entriesOf [] items) ns count) :
    ∃ v d, (n0.nodes j).run [.parserStart p (some c), op] = .ok v ∧ (n.nodes j).consumers c = .list d ∧ Shows d (ns.take 2) ∧
      d.numEnginesKnownByMaster = some count ∧ d.streamComplete = some true ∧ (n.nodes j).engines = (n0.nodes j).engines ∧
      (n.nodes j).log.filter (fun e => !isCall e) = v.log.filter (fun e => !isCall e) ++
        (calls c ((entriesOf [] items).map .entry ++ [.complete])).map .consumer ++ [.streamEnd cb c true (.list d)] := by
  obtain ⟨v, hist, k0, k1, k2⟩ := busy_all h hl hq
  obtain ⟨tx, htx⟩ := h.tx
  obtain ⟨v', u, d, g1, g2, g3⟩ := C61_list_download (n0.nodes j) h.sound ht hpf tx htx h.engine p c cb l hc hempty hcb h.parser op h.request
    first rest items tail hw ns count hfile (hist.map deed) k2
  have ev : v' = v := by
    rw [k0] at g1
    injection g1 with g1
    exact g1.symm
  subst ev
  have eu : u = n.nodes j := by
    rw [k1] at g2
    injection g2 with g2
    exact g2.symm
  subst eu
  exact ⟨v', d, k0, g3⟩

/-! ## Histories that meet the hypotheses -/

/-- Another device sends these frames, and the receive loop of node `j` takes each before the next. -/
def politeAnswer (j : Nat) (answer : List CanFrame) : List BusOp := answer.flatMap (fun f => [.foreign f, .receive j])

theorem polite_frame (n : Net) (j : Nat) (f : CanFrame) (u : World) (hq : n.queue j = []) (hroom : 1 ≤ n.room j)
    (hw : (n.nodes j).step (.handle f) = .ok u) :
    ∃ n', n.run [.foreign f, .receive j] = .ok n' ∧ n'.nodes j = u ∧ n'.queue j = [] ∧ n'.lost j = n.lost j ∧ n'.room = n.room ∧
      ofOthers j n'.wire = ofOthers j n.wire ++ [f] := by
  have hfit : n.fits (none, f) j = true := by
    simp only [Net.fits, hq, List.length_nil, Bool.and_eq_true, decide_eq_true_eq]
    exact ⟨(by intro h; cases h), hroom⟩
  have hq1 : (n.deliver (none, f)).queue j = [f] := by simp [Net.deliver, hfit, hq]
  refine ⟨{ (n.deliver (none, f)).setNode j u with queue := fun m => if m = j then [] else (n.deliver (none, f)).queue m }, ?_, ?_, ?_, ?_, rfl, ?_⟩
  · show ((n.deliver (none, f)).step (.receive j) >>= fun c => .ok c) = _
    have hw1 : ((n.deliver (none, f)).nodes j).step (.handle f) = .ok u := hw
    simp only [Net.step, hq1, hw1, bind, Except.bind]
  · show (if j = j then u else _) = u
    rw [if_pos rfl]
  · show (if j = j then [] else _) = []
    rw [if_pos rfl]
  · show (n.deliver (none, f)).lost j = _
    simp [Net.deliver, hfit]
  · show ofOthers j (n.wire ++ [(none, f)]) = _
    rw [ofOthers_append]
    rfl

theorem net_run_append (n m : Net) (a b : List BusOp) (h : n.run a = .ok m) : n.run (a ++ b) = m.run b := by
  unfold Net.run at h ⊢
  rw [List.foldlM_append, h]
  rfl

theorem polite_answer (j : Nat) (answer : List CanFrame) (n : Net) (u : World) (hq : n.queue j = []) (hroom : 1 ≤ n.room j)
    (hw : (n.nodes j).run (answer.map .handle) = .ok u) :
    ∃ n', n.run (politeAnswer j answer) = .ok n' ∧ n'.nodes j = u ∧ n'.queue j = [] ∧ n'.lost j = n.lost j ∧
      ofOthers j n'.wire = ofOthers j n.wire ++ answer := by
  induction answer generalizing n with
  | nil => cases hw; exact ⟨n, rfl, rfl, hq, rfl, by simp⟩
  | cons f answer ih =>
    obtain ⟨w, h1, h2⟩ := bind_ok (show ((n.nodes j).step (.handle f) >>= fun c => c.run (answer.map .handle)) = .ok u from hw)
    obtain ⟨m, a1, a2, a3, a4, a5, a6⟩ := polite_frame n j f w hq hroom h1
    obtain ⟨n', b1, b2, b3, b4, b5⟩ := ih m a3 (by rw [a5]; exact hroom) (by rw [a2]; exact h2)
    refine ⟨n', ?_, b2, b3, by rw [b4, a4], by rw [b5, a6, List.append_assoc]; rfl⟩
    show n.run ([.foreign f, .receive j] ++ politeAnswer j answer) = _
    rw [net_run_append _ _ _ _ a1]
    exact b1

theorem own_exists (n : Net) (j : Nat) (op : Op) (w : World) (h : (n.nodes j).step op = .ok w) : ∃ n', n.step (.call j op) = .ok n' := by
  simp only [Net.step, h, bind, Except.bind]
  exact ⟨_, rfl⟩

/-- C107. The hypotheses of `C107_engine` and `C107_list` are met whenever the same download works at a station alone (C49, C51): room for one
frame is enough if the loop takes each frame before the next one is sent. -/
theorem C107_polite (n0 : Net) (h0 : FreshNet n0) (j p c : Nat) (op : Op) (answer : List CanFrame) (u : World) (hroom : 1 ≤ n0.room j)
    (hs : Sound (n0.nodes j)) (htx : ∃ tx, (n0.nodes j).station.callbacks.tx = some tx)
    (he : (n0.nodes j).station.callbacks.engine.isSome = true) (hp : (n0.nodes j).station.callbacks.configData ≠ some p)
    (hr : Requests (n0.nodes j) p op) (hans : ∀ f ∈ answer, commandOf f = 0x21 ∧ f.data.dlc.toNat ≤ 8)
    (hrun : (n0.nodes j).run ([.parserStart p (some c), op] ++ answer.map .handle) = .ok u) :
    ∃ n, BusyDownload n0 n j p c op (politeAnswer j answer) answer ∧ n.lost j = 0 ∧ n.queue j = [] ∧ n.nodes j = u := by
  obtain ⟨w1, r1, hrun⟩ := bind_ok (show ((n0.nodes j).step (.parserStart p (some c)) >>= fun w => w.run (op :: answer.map .handle)) = .ok u from hrun)
  obtain ⟨w2, r2, hrun⟩ := bind_ok (show (w1.step op >>= fun w => w.run (answer.map .handle)) = .ok u from hrun)
  obtain ⟨n1, s1⟩ := own_exists n0 j _ w1 r1
  obtain ⟨a1, a2, a3, a4, a5⟩ := own_call n0 n1 j _ s1
  have e1 : n1.nodes j = w1 := by rw [r1] at a1; injection a1 with a1; exact a1.symm
  obtain ⟨n2, s2⟩ := own_exists n1 j op w2 (by rw [e1]; exact r2)
  obtain ⟨b1, b2, b3, b4, b5⟩ := own_call n1 n2 j _ s2
  have e2 : n2.nodes j = w2 := by rw [e1, r2] at b1; injection b1 with b1; exact b1.symm
  obtain ⟨n, c1, c2, c3, c4, c5⟩ := polite_answer j answer n2 u (by rw [b2, a2]; exact h0.queue j) (by rw [b5, a5]; exact hroom) (by rw [e2]; exact hrun)
  have hw : ofOthers j n.wire = answer := by
    rw [c5, b4, a4, h0.wire]
    rfl
  refine ⟨n, ⟨h0, hs, htx, he, hp, hr, ?_, ?_, ?_, ?_⟩, by rw [c4, b3, a3]; exact h0.lost j, c3, c2⟩
  · intro o ho
    obtain ⟨x, hx, e⟩ := List.mem_filterMap.mp ho
    obtain ⟨f, -, hx⟩ := List.mem_flatMap.mp hx
    simp only [List.mem_cons, List.not_mem_nil, or_false] at hx
    rcases hx with rfl | rfl <;> cases e
  · show (n0.step _ >>= fun m => m.run _) = _
    rw [s1]
    show (n1.step _ >>= fun m => m.run _) = _
    rw [s2]
    exact c1
  · rw [hw]
    exact List.filter_eq_self.mpr (fun f hf => decide_eq_true (hans f hf).1)
  · rw [hw]
    exact fun f hf => (hans f hf).2

/-- Stations with two callbacks, and room for one frame. -/
def tightNet : Net := { nodes := fun _ => busyWorld, wire := [], room := fun _ => 1, queue := fun _ => [], lost := fun _ => 0 }

/-- What the request of the case asks for. -/
def caseRequest : Op := .requestShortInfo { availability := .NAME_KNOWN, name := str "x" ++ [0#8] } (some 0)

/-- A history in which the loop of node 0 is late: the station of node 1 sends a command just before the second frame of the answer. -/
def lateOps : List BusOp :=
  [.foreign caseFrames.1, .receive 0, .call 1 (.sendVelocity { uid := 5#32 } 9#16)] ++ caseFrames.2.map .foreign ++ [.receive 0, .receive 0]

/-- The same with a loop in time. -/
def timelyOps : List BusOp :=
  [.foreign caseFrames.1, .receive 0, .call 1 (.sendVelocity { uid := 5#32 } 9#16), .receive 0] ++ caseFrames.2.map .foreign ++ [.receive 0]

theorem busyWorld_sound : Sound busyWorld :=
  ⟨(C58_start ⟨32⟩ (fun _ => .app) (fun _ => Locomotive.construct [])).parsers, (C58_start ⟨32⟩ (fun _ => .app) (fun _ => Locomotive.construct [])).attached⟩

/-- Has the consumer of the case been told that the stream is complete? -/
def caseComplete (n : Net) : Bool :=
  (n.nodes 0).log.any (fun e => match e with
    | .consumer ⟨7, .complete⟩ => true
    | _ => false)

theorem case_download (ops : List BusOp) (lost : Nat) (complete : Bool) (hctl : callsOf 0 ops = [])
    (h : netOutcome tightNet (.call 0 (.parserStart 0 (some 7)) :: .call 0 caseRequest :: ops) (fun n =>
      (ofOthers 0 n.wire).filter inStream = caseFrames.1 :: caseFrames.2 ∧ (ofOthers 0 n.wire).all (fun f => f.data.dlc.toNat ≤ 8) ∧ n.lost 0 = lost ∧
        n.queue 0 = [] ∧ caseComplete n = complete) = true) :
    ∃ n, BusyDownload tightNet n 0 0 7 caseRequest ops (caseFrames.1 :: caseFrames.2) ∧ n.lost 0 = lost ∧ n.queue 0 = [] ∧ caseComplete n = complete := by
  unfold netOutcome at h
  split at h
  · next n hn =>
    obtain ⟨h1, h2, h3, h4, h5⟩ := of_decide_eq_true h
    exact ⟨n, ⟨⟨rfl, fun _ => rfl, fun _ => rfl⟩, busyWorld_sound, ⟨1, rfl⟩, rfl, by decide,
      .shortInfo _ rfl (by unfold Terminated; decide) (Or.inl rfl), by rw [hctl]; simp, hn, h1, fun f hf => of_decide_eq_true (List.all_eq_true.mp h2 f hf)⟩,
      h3, h4, h5⟩
  · cases h

/-- Both histories meet the hypotheses of `C107_complete`. In the first one a frame is lost and no end is told; in the second the stream is
complete. -/
example : (∃ n, BusyDownload tightNet n 0 0 7 caseRequest lateOps (caseFrames.1 :: caseFrames.2) ∧ n.lost 0 = 1 ∧ n.queue 0 = [] ∧ caseComplete n = false) ∧
    ∃ n, BusyDownload tightNet n 0 0 7 caseRequest timelyOps (caseFrames.1 :: caseFrames.2) ∧ n.lost 0 = 0 ∧ n.queue 0 = [] ∧ caseComplete n = true :=
  ⟨case_download lateOps 1 false rfl (by decide +kernel), case_download timelyOps 0 true rfl (by decide +kernel)⟩

/-- An engine file over a bus with room for one frame at each node. -/
theorem case_engine_download : ∃ (n0 n : Net) (first : CanFrame) (rest : List CanFrame) (pad : Nat),
    WireStream first rest caseEngine (.filler (List.replicate pad 0#8)) ∧ (∀ j, n0.room j = 1) ∧ n.lost 0 = 0 ∧ n.queue 0 = [] ∧
    BusyDownload n0 n 0 0 7 (.requestEngine 3 (some 0)) (politeAnswer 0 (first :: rest)) (first :: rest) ∧
    ((n.nodes 0).engines 3).data.uid = 0x4006#32 ∧ ((n.nodes 0).engines 3).data.address = ⟨6#32⟩ := by
  let eng : Locomotive := { Locomotive.construct (List.replicate 8 0#8) with info := { availability := .NAME_KNOWN, name := str "BR 12" ++ List.replicate 12 0#8 } }
  obtain ⟨first, rest, pad, hw, -⟩ := wire_exists caseEngine (by decide +kernel) (by decide +kernel) (by decide) (by decide +kernel)
  let w : World := { World.new ⟨32⟩ (fun _ => .loco ⟨.obj 3, .obj 9⟩) (fun _ => eng) with station := { callbacks := { tx := some 1, engine := some 2 } } }
  let n0 : Net := { nodes := fun _ => w, wire := [], room := fun _ => 1, queue := fun _ => [], lost := fun _ => 0 }
  have hs : Sound w := ⟨(C58_start ⟨32⟩ (fun _ => .loco ⟨.obj 3, .obj 9⟩) (fun _ => eng)).parsers, (C58_start ⟨32⟩ (fun _ => .loco ⟨.obj 3, .obj 9⟩) (fun _ => eng)).attached⟩
  have ht : Tidy w := tidy_new ⟨32⟩ (fun _ => .loco ⟨.obj 3, .obj 9⟩) (fun _ => eng)
  have hr : Requests w 0 (.requestEngine 3 (some 0)) := .engine 3 rfl (by unfold Terminated; decide) (Or.inl rfl)
  obtain ⟨v, u, g1, g2, -⟩ := C49_download_partial w hs ht (by decide) 1 rfl 0 7 3 9 ⟨.obj 3, .obj 9⟩ rfl rfl rfl (by unfold Terminated; decide) rfl
    (by decide) _ hr first rest _ _ hw _ _ _ caseEngine_file.matched
  have hans : ∀ f ∈ first :: rest, commandOf f = 0x21 ∧ f.data.dlc.toNat ≤ 8 := by
    intro f hf
    refine ⟨hw.command f hf, ?_⟩
    rcases List.mem_cons.mp hf with rfl | hf
    · have : f.data.dlc.toNat = 6 ∨ f.data.dlc.toNat = 7 := hw.isFirst
      omega
    · exact Nat.le_of_eq (hw.data f.data (List.mem_map_of_mem hf))
  obtain ⟨n, b1, b2, b3, -⟩ := C107_polite n0 ⟨rfl, fun _ => rfl, fun _ => rfl⟩ 0 0 7 (.requestEngine 3 (some 0)) (first :: rest) u (Nat.le_refl 1) hs ⟨1, rfl⟩ rfl (by decide) hr hans
    (by rw [World.run_append]; show (w.run _ >>= _) = _; rw [g1]; exact g2)
  have c := C107_engine n0 n 0 0 7 _ _ first rest b1 b2 b3 ht (by decide) 3 9 ⟨.obj 3, .obj 9⟩ rfl rfl rfl (by unfold Terminated; decide) rfl _ _ hw _ _ _
    caseEngine_file.matched
  exact ⟨n0, n, first, rest, pad, hw, fun _ => rfl, b2, b3, b1, c.1, c.2.1⟩

end RR32
