import Verif.Proofs.Bus
import Verif.Props.History

/-! # C63, C64, C65: several stations on one bus -/

set_option autoImplicit false

namespace RR32

open Spec

/-! ## C63: no station answers, so traffic is bounded by what applications ask for -/

theorem sent_append (a b : List LogEntry) : Bus.sent (a ++ b) = Bus.sent a ++ Bus.sent b := by
  simp only [Bus.sent, List.filterMap_append]

theorem sent_notCall (l : List LogEntry) (h : ∀ e ∈ l, e.notCall) : Bus.sent l = [] := by
  simp only [Bus.sent, List.filterMap_eq_nil_iff]
  intro e he
  have := h e he
  cases e with
  | call c => exact this.elim
  | _ => rfl

theorem sent_runCalls (w w' : World) (cs : List Call) (h : w.runCalls cs = .ok w') :
    ∃ new, w'.log = w.log ++ new ∧ Bus.sent new = Bus.sent (cs.map .call) := by
  induction cs generalizing w with
  | nil => cases h; exact ⟨[], by simp, rfl⟩
  | cons c cs ih =>
    obtain ⟨u, h1, h2⟩ := bind_ok (show (w.runCall c >>= fun u => u.runCalls cs) = .ok w' from h)
    obtain ⟨n2, l2, s2⟩ := ih u h2
    have one : ∃ n1, u.log = w.log ++ n1 ∧ Bus.sent n1 = Bus.sent [.call c] := by
      cases c with
      | cfgStart n => injection h1 with h1; subst h1; exact ⟨[], by simp [World.setParser], rfl⟩
      | cfgAdd n d => obtain ⟨-, -, l, e, n⟩ := World.parserAdd_quiet _ _ _ _ h1; exact ⟨l, e, sent_notCall l n⟩
      | cfgReset n => obtain ⟨-, -, l, e, n⟩ := World.parserReset_quiet _ _ _ h1; exact ⟨l, e, sent_notCall l n⟩
      | _ => injection h1 with h1; subst h1; exact ⟨_, rfl, rfl⟩
    obtain ⟨n1, l1, s1⟩ := one
    refine ⟨n1 ++ n2, by rw [l2, l1, List.append_assoc], ?_⟩
    rw [sent_append, s1, s2, ← sent_append]
    rfl

/-- The call transmits at most `n` frames. -/
def SendsAtMost (n : Nat) (w w' : World) : Prop := ∃ new, w'.log = w.log ++ new ∧ (Bus.sent new).length ≤ n

theorem atMost_calls {n : Nat} {w w' : World} {r : Res (List Call)} (h : w.stationCalls r = .ok w')
    (hr : ∀ cs, r = .ok cs → (Bus.sent (cs.map .call)).length ≤ n) : SendsAtMost n w w' := by
  obtain ⟨cs, h1, h2⟩ := bind_ok h
  obtain ⟨new, hl, hs⟩ := sent_runCalls _ _ _ h2
  exact ⟨new, hl, by rw [hs]; exact hr cs h1⟩

theorem atMost_update {n : Nat} {w w' : World} {r : Res (Station × List Call)} (h : w.stationUpdate r = .ok w')
    (hr : ∀ s cs, r = .ok (s, cs) → (Bus.sent (cs.map .call)).length ≤ n) : SendsAtMost n w w' := by
  obtain ⟨⟨s, cs⟩, h1, h2⟩ := bind_ok h
  obtain ⟨new, hl, hs⟩ := sent_runCalls _ _ _ h2
  exact ⟨new, hl, by rw [hs]; exact hr s cs h1⟩

theorem txSend_atMost {s : Station} {f : CanFrame} {cs : List Call} (h : s.txSend f = .ok cs) : (Bus.sent (cs.map .call)).length ≤ 1 := by
  unfold Station.txSend at h
  split at h
  · cases h
  · injection h with h; subst h; simp [Bus.sent]

theorem reset_sent (o : Option Nat) : Bus.sent ((o.toList.map Call.cfgReset).map .call) = [] := by
  cases o <;> rfl

theorem loop_atMost (s : Station) (n : Nat) (f : CanFrame) (i : Byte) (cs : List Call) (h : s.allFunctionsLoop f n i = .ok cs) :
    (Bus.sent (cs.map .call)).length ≤ n := by
  induction n generalizing f i cs with
  | zero => injection h with h; subst h; simp [Bus.sent]
  | succ n ih =>
    obtain ⟨t, h1, h⟩ := bind_ok h
    obtain ⟨ts, h2, h⟩ := bind_ok h
    injection h with h; subst h
    have a := txSend_atMost h1
    have b := ih _ _ _ h2
    rw [List.map_append, sent_append, List.length_append]
    omega

theorem requestEngineList_atMost (s s' : Station) (off : Byte) (p : Option Nat) (cs : List Call)
    (h : s.RequestEngineList off p = .ok (s', cs)) : (Bus.sent (cs.map .call)).length ≤ 2 := by
  unfold Station.RequestEngineList at h
  simp only [Station.AbortCurrentConfigRequest, finish_eq] at h
  obtain ⟨m1, -, h⟩ := bind_ok h
  obtain ⟨⟨m2, n⟩, -, h⟩ := bind_ok h
  dsimp only at h
  split at h
  · obtain ⟨t1, h1, h⟩ := bind_ok h
    obtain ⟨t2, h2, h⟩ := bind_ok h
    injection h with h; injection h with ha hb; subst ha hb
    have a := txSend_atMost h1
    have b := txSend_atMost h2
    simp only [List.map_append, sent_append, reset_sent, List.nil_append]
    have key : ∀ x y z : List CanFrame, x = [] → y.length ≤ 1 → z.length ≤ 1 → (x ++ y ++ z).length ≤ 2 := by
      rintro x y z rfl hy hz
      simp only [List.nil_append, List.length_append]
      omega
    exact key _ _ _ (by cases p <;> rfl) a b
  · injection h with h; injection h with ha hb; subst ha hb
    rw [reset_sent]
    simp

theorem requestEngine_atMost (s s' : Station) (b : Bool) (i : ShortInfo) (p : Option Nat) (cs : List Call)
    (h : s.RequestEngine b i p = .ok (s', cs)) : (Bus.sent (cs.map .call)).length ≤ 3 := by
  unfold Station.RequestEngine at h
  split at h
  · injection h with h; injection h with h1 h2; subst h1 h2; simp [Bus.sent]
  · split at h
    · injection h with h; injection h with h1 h2; subst h1 h2; simp [Bus.sent]
    · simp only [Station.AbortCurrentConfigRequest, finish_eq] at h
      obtain ⟨m1, _, h⟩ := bind_ok h
      obtain ⟨t1, ht1, h⟩ := bind_ok h
      obtain ⟨n, _, h⟩ := bind_ok h
      obtain ⟨m2, _, h⟩ := bind_ok h
      obtain ⟨t2, ht2, h⟩ := bind_ok h
      obtain ⟨d3, hd3, h⟩ := bind_ok h
      obtain ⟨t3, ht3, h⟩ := bind_ok h
      injection h with h; injection h with h1 h2; subst h1 h2
      have a := txSend_atMost ht1
      have b := txSend_atMost ht2
      have c := txSend_atMost ht3
      simp only [List.map_append, sent_append, reset_sent, List.nil_append]
      have key : ∀ x y z u : List CanFrame, x = [] → y.length ≤ 1 → z.length ≤ 1 → u.length ≤ 1 → (x ++ y ++ z ++ u).length ≤ 3 := by
        rintro x y z u rfl hy hz hu
        simp only [List.nil_append, List.length_append]
        omega
      exact key _ _ _ _ (by cases p <;> rfl) a b c

theorem step_atMost (w w' : World) (op : Op) (h : w.step op = .ok w') : SendsAtMost (frameLimit op) w w' := by
  have lit : ∀ u : World, u.log = w.log → SendsAtMost 0 w u := by
    intro u h1; exact ⟨[], by rw [h1, List.append_nil], by simp [Bus.sent]⟩
  have quiet : ∀ u : World, World.Quiet w u → SendsAtMost 0 w u := by
    rintro u ⟨-, -, l, e, n⟩
    exact ⟨l, e, by rw [sent_notCall l n]; simp⟩
  have finish : ∀ s cs, (Except.ok w.station.FinishCurrentConfigRequest : Res (Station × List Call)) = .ok (s, cs) →
      (Bus.sent (cs.map .call)).length ≤ 0 := by
    intro s cs hr
    rw [finish_eq] at hr
    injection hr with hr; injection hr with h1 h2; subst h1 h2
    rw [reset_sent]
    simp
  cases op with
  | begin_ uuid cbs =>
    refine atMost_update h ?_
    intro s cs hr
    simp only [Station.begin_, Station.AbortCurrentConfigRequest, finish_eq] at hr
    injection hr with hr; injection hr with h1 h2; subst h1 h2
    rw [reset_sent]
    simp
  | handle f =>
    refine atMost_calls h ?_
    intro cs hr
    have : Bus.sent (cs.map .call) = [] := by
      simp only [Bus.sent, List.filterMap_eq_nil_iff]
      intro e he
      obtain ⟨c, hc, rfl⟩ := List.mem_map.mp he
      have := (C14_no_tx _ _ _ _ hr c hc).1
      cases c with
      | tx cb g => exact absurd rfl (this cb g)
      | _ => rfl
    rw [this]
    simp
  | finish => exact atMost_update h finish
  | abort => exact atMost_update h finish
  | notifyReceived => exact atMost_update h finish
  | requestEngine e p => exact atMost_update h (fun s cs hr => requestEngine_atMost _ _ _ _ _ _ hr)
  | requestShortInfo e p => exact atMost_update h (fun s cs hr => requestEngine_atMost _ _ _ _ _ _ hr)
  | requestEngineList off p => exact atMost_update h (fun s cs hr => requestEngineList_atMost _ _ _ _ _ hr)
  | requestDirection e => exact atMost_calls h (fun cs hr => txSend_atMost hr)
  | sendDirection e d =>
    refine atMost_calls h ?_
    intro cs hr
    unfold Station.SendEngineDirection at hr
    split at hr
    · exact txSend_atMost hr
    · injection hr with hr; subst hr; simp [Bus.sent]
  | requestVelocity e => exact atMost_calls h (fun cs hr => txSend_atMost hr)
  | sendVelocity e v => exact atMost_calls h (fun cs hr => txSend_atMost hr)
  | requestFunction e f => exact atMost_calls h (fun cs hr => txSend_atMost hr)
  | requestAllFunctions e => exact atMost_calls h (fun cs hr => loop_atMost _ 16 _ _ _ hr)
  | sendFunction e f v => exact atMost_calls h (fun cs hr => txSend_atMost hr)
  | sendEmergencyStop e => exact atMost_calls h (fun cs hr => txSend_atMost hr)
  | sendStop => exact atMost_calls h (fun cs hr => txSend_atMost hr)
  | sendGo => exact atMost_calls h (fun cs hr => txSend_atMost hr)
  | sendAccessory a p d pw => exact atMost_calls h (fun cs hr => txSend_atMost hr)
  | sendPacket f => exact atMost_calls h (fun cs hr => txSend_atMost hr)
  | parserStart n c => injection h with h; subst h; exact lit _ rfl
  | parserStartStream n => injection h with h; subst h; exact lit _ rfl
  | parserAdd n d => exact quiet _ (World.parserAdd_quiet _ _ _ _ h)
  | parserReset n => exact quiet _ (World.parserReset_quiet _ _ _ h)
  | setEngine c e => simp only [World.step] at h; split at h <;> injection h with h <;> subst h <;> exact lit _ rfl
  | setEndCallback c e => simp only [World.step] at h; split at h <;> injection h with h <;> subst h <;> exact lit _ rfl
  | setStreamOffset c e => simp only [World.step] at h; split at h <;> injection h with h <;> subst h <;> exact lit _ rfl
  | clearTable c => simp only [World.step] at h; split at h <;> injection h with h <;> subst h <;> exact lit _ rfl
  | resetList c => simp only [World.step] at h; split at h <;> injection h with h <;> subst h <;> exact lit _ rfl
  | setName e n => obtain ⟨l, -, h⟩ := bind_ok h; injection h with h; subst h; exact lit _ rfl
  | assignEngine e l => injection h with h; subst h; exact lit _ rfl

/-- One step of the installation, from any state whatever: receiving a frame puts nothing on the bus, and a call of an application puts at
most as many frames on it as its kind allows, all of them from that node. -/
theorem C63_step (b b' : Bus) (o : BusOp) (h : b.step o = .ok b') :
    ∃ new, b'.wire = b.wire ++ new ∧ new.length ≤ busLimit o ∧ ∀ x ∈ new, ∀ i op, o = .call i op → x.1 = some i := by
  cases o with
  | call i op =>
    obtain ⟨w, h1, h2⟩ := bind_ok h
    injection h2 with h2; subst h2
    obtain ⟨new, hl, hn⟩ := step_atMost _ _ _ h1
    refine ⟨_, rfl, ?_, ?_⟩
    · rw [hl, List.drop_left, List.length_map]
      exact hn
    · intro x hx j op' e
      obtain ⟨f, -, rfl⟩ := List.mem_map.mp hx
      injection e with e
      subst e; rfl
  | receive i =>
    have : b'.wire = b.wire := by
      simp only [Bus.step] at h
      split at h
      · injection h with h; subst h; rfl
      · split at h
        · injection h with h; subst h; rfl
        · obtain ⟨w, -, h⟩ := bind_ok h
          injection h with h; subst h; rfl
    exact ⟨[], by rw [this, List.append_nil], by simp, by intro x hx; cases hx⟩
  | foreign f =>
    injection h with h; subst h
    exact ⟨_, rfl, Nat.le_refl _, by intro x _ i op e; cases e⟩

/-- Over any history: the frames on the bus are bounded by what applications and other devices asked for, however often the nodes receive. -/
theorem C63_total (b b' : Bus) (ops : List BusOp) (h : b.run ops = .ok b') :
    b'.wire.length ≤ b.wire.length + (ops.map busLimit).sum := by
  induction ops generalizing b with
  | nil => injection h with h; subst h; simp
  | cons o ops ih =>
    obtain ⟨c, h1, h2⟩ := bind_ok (show (b.step o >>= fun c => c.run ops) = .ok b' from h)
    obtain ⟨new, hw, hn, -⟩ := C63_step b c o h1
    have := ih c h2
    rw [hw, List.length_append] at this
    rw [List.map_cons, List.sum_cons]
    omega

/-- Left alone, the installation comes to rest: `n` turns of a node's receive loop take the next `n` frames, as far as there are any, and
leave the bus and the other nodes as they are. -/
theorem C63_rest (b b' : Bus) (i n : Nat) (hp : b.pos i ≤ b.wire.length) (h : b.run (List.replicate n (.receive i)) = .ok b') :
    b'.wire = b.wire ∧ b'.pos i = min (b.pos i + n) b.wire.length ∧ ∀ j, j ≠ i → b'.nodes j = b.nodes j ∧ b'.pos j = b.pos j := by
  induction n generalizing b with
  | zero => injection h with h; subst h; exact ⟨rfl, by omega, fun j hj => ⟨rfl, rfl⟩⟩
  | succ n ih =>
    rw [List.replicate_succ] at h
    obtain ⟨c, h1, h2⟩ := bind_ok (show (b.step (.receive i) >>= fun c => c.run _) = .ok b' from h)
    have key : c.wire = b.wire ∧ c.pos i = min (b.pos i + 1) b.wire.length ∧ ∀ j, j ≠ i → c.nodes j = b.nodes j ∧ c.pos j = b.pos j := by
      simp only [Bus.step] at h1
      split at h1
      · next hw =>
        injection h1 with h1; subst h1
        have := List.getElem?_eq_none_iff.mp hw
        exact ⟨rfl, by omega, fun j hj => ⟨rfl, rfl⟩⟩
      · next s f hw =>
        obtain ⟨hlt, -⟩ := List.getElem?_eq_some_iff.mp hw
        split at h1
        · injection h1 with h1; subst h1
          exact ⟨rfl, by simp only [Bus.advance, if_true]; omega, fun j hj => ⟨rfl, if_neg hj⟩⟩
        · obtain ⟨w, -, h1⟩ := bind_ok h1
          injection h1 with h1; subst h1
          exact ⟨rfl, by simp only [Bus.advance, Bus.setNode, if_true]; omega, fun j hj => ⟨if_neg hj, if_neg hj⟩⟩
    obtain ⟨k1, k2, k3⟩ := key
    obtain ⟨g1, g2, g3⟩ := ih c (by rw [k1, k2]; omega) h2
    exact ⟨g1.trans k1, by rw [g2, k1, k2]; omega, fun j hj => ⟨(g3 j hj).1.trans (k3 j hj).1, (g3 j hj).2.trans (k3 j hj).2⟩⟩

/-! ## C64: a command given at one station is heard at all others, once and in the same order -/

/-- What node `j` hears of a frame on the bus. -/
def heardAt (cbs : Callbacks) (j : Nat) (x : Option Nat × CanFrame) : List Event :=
  if x.1 = some j then [] else (reaction cbs false x.2).flatMap eventOf

/-- What holds all the time. -/
structure BusInv (b0 b : Bus) (ops : List BusOp) : Prop where
  station : ∀ j, (b.nodes j).station = (b0.nodes j).station
  pos : ∀ j, b.pos j ≤ b.wire.length
  plain : ∀ x ∈ b.wire, Plain x.2
  told : ∀ j, eventsIn (b.nodes j).log = (b.wire.take (b.pos j)).flatMap (heardAt (b0.nodes j).station.callbacks j)
  wire : ∀ j, b.wire.flatMap (heardAt (b0.nodes j).station.callbacks j) = ops.flatMap (hearsOf (b0.nodes j).station.callbacks j)

theorem told_append (a b : List LogEntry) : eventsIn (a ++ b) = eventsIn a ++ eventsIn b := List.flatMap_append

theorem told_tx (cb : Nat) (fs : List CanFrame) : eventsIn (fs.map (fun f => LogEntry.call (.tx cb f))) = [] := by
  simp only [eventsIn, List.flatMap_eq_nil_iff]
  intro e he
  obtain ⟨f, -, rfl⟩ := List.mem_map.mp he
  rfl

theorem told_calls (cs : List Call) : eventsIn (cs.map LogEntry.call) = cs.flatMap eventOf := by
  simp only [eventsIn, List.flatMap_map]

theorem sent_tx (cb : Nat) (fs : List CanFrame) : Bus.sent (fs.map (fun f => LogEntry.call (.tx cb f))) = fs := by
  induction fs with
  | nil => rfl
  | cons f fs ih => simp [Bus.sent]

/-- One command. -/
theorem call_step (b : Bus) (i : Nat) (op : Op) (hop : isCommand op = true) (htx : (b.nodes i).station.callbacks.tx.isSome = true) :
    ∃ cb fs, Transmits (b.nodes i).station cb op fs ∧ b.step (.call i op) =
      .ok { b.setNode i ((b.nodes i).logAll (fs.map (fun f => .call (.tx cb f)))) with wire := b.wire ++ fs.map (fun f => (some i, f)) } := by
  obtain ⟨cb, hcb⟩ := Option.isSome_iff_exists.mp htx
  obtain ⟨fs, ht⟩ := command_transmits _ cb hcb op hop
  refine ⟨cb, fs, ht, ?_⟩
  simp only [Bus.step, ht.step _ rfl, bind, Except.bind, World.logAll, List.drop_left, sent_tx]

/-- One turn of a receive loop. -/
theorem receive_step (b : Bus) (i : Nat) (hp : ∀ x ∈ b.wire, Plain x.2) (he : (b.nodes i).station.callbacks.engine.isSome = true)
    (hc : (b.nodes i).station.callbacks.configData = none) :
    (b.wire[b.pos i]? = none ∧ b.step (.receive i) = .ok b) ∨
    (∃ f, b.wire[b.pos i]? = some (some i, f) ∧ b.step (.receive i) = .ok (b.advance i)) ∨
    (∃ s f, b.wire[b.pos i]? = some (s, f) ∧ s ≠ some i ∧ b.step (.receive i) =
      .ok ((b.advance i).setNode i ((b.nodes i).logAll ((reaction (b.nodes i).station.callbacks false f).map .call)))) := by
  cases hw : b.wire[b.pos i]? with
  | none => exact Or.inl ⟨rfl, by simp only [Bus.step, hw]⟩
  | some x =>
    obtain ⟨s, f⟩ := x
    by_cases hs : s = some i
    · subst hs
      exact Or.inr (Or.inl ⟨f, rfl, by simp only [Bus.step, hw, if_true]⟩)
    · refine Or.inr (Or.inr ⟨s, f, rfl, hs, ?_⟩)
      have := handle_plain (b.nodes i) f (hp (s, f) (List.mem_of_getElem? hw)) he hc
      simp only [Bus.step, hw, if_neg hs, this, bind, Except.bind]

theorem take_next {α : Type} {l : List α} {n : Nat} {x : α} (h : l[n]? = some x) : l.take (n + 1) = l.take n ++ [x] := by
  obtain ⟨hn, rfl⟩ := List.getElem?_eq_some_iff.mp h
  exact (List.take_concat_get' l n hn).symm

theorem busInv_step (b0 b : Bus) (done : List BusOp) (o : BusOp) (h0 : FreshBus b0) (h : BusInv b0 b done)
    (h1 : ∀ i op, o = .call i op → isCommand op = true) (h2 : ∀ f, o = .foreign f → f.data.dlc.toNat ≤ 8) :
    ∃ b', b.step o = .ok b' ∧ BusInv b0 b' (done ++ [o]) := by
  cases o with
  | call i op =>
    obtain ⟨cb, fs, ht, hs⟩ := call_step b i op (h1 i op rfl) (by rw [h.station]; exact h0.tx i)
    refine ⟨_, hs, ?_⟩
    constructor
    · intro j
      show (if j = i then _ else _ : World).station = _
      split
      · next e => subst e; exact h.station j
      · exact h.station j
    · intro j
      show b.pos j ≤ (b.wire ++ _).length
      rw [List.length_append]
      exact Nat.le_add_right_of_le (h.pos j)
    · intro x hx
      rcases List.mem_append.mp hx with hx | hx
      · exact h.plain x hx
      · obtain ⟨f, hf, rfl⟩ := List.mem_map.mp hx
        exact ht.plain f hf
    · intro j
      show eventsIn (if j = i then _ else _ : World).log = ((b.wire ++ _).take (b.pos j)).flatMap _
      rw [List.take_append_of_le_length (h.pos j), ← h.told j]
      split
      · next e => subst e; simp only [World.logAll, told_append, told_tx, List.append_nil]
      · rfl
    · intro j
      show (b.wire ++ _).flatMap _ = _
      rw [List.flatMap_append, List.flatMap_append, h.wire j, List.flatMap_map]
      congr 1
      simp only [List.flatMap_cons, List.flatMap_nil, List.append_nil, hearsOf, heardAt]
      by_cases e : i = j
      · subst e; simp
      · rw [if_neg e, ← ht.heard]
        congr 1
        funext f
        rw [if_neg (by intro x; injection x with x; exact e x)]
  | receive i =>
    have wire : ∀ j, b.wire.flatMap (heardAt (b0.nodes j).station.callbacks j) =
        (done ++ [BusOp.receive i]).flatMap (hearsOf (b0.nodes j).station.callbacks j) := by
      intro j
      rw [List.flatMap_append, h.wire j]
      simp [hearsOf]
    rcases receive_step b i h.plain (by rw [h.station]; exact h0.engine i) (by rw [h.station]; exact h0.parser i) with
      ⟨hw, hs⟩ | ⟨f, hw, hs⟩ | ⟨s, f, hw, hne, hs⟩
    · exact ⟨b, hs, h.station, h.pos, h.plain, h.told, wire⟩
    · refine ⟨_, hs, h.station, ?_, h.plain, ?_, wire⟩
      · intro j
        show (if j = i then _ else _) ≤ b.wire.length
        split
        · exact (List.getElem?_eq_some_iff.mp hw).1
        · exact h.pos j
      · intro j
        show eventsIn (b.nodes j).log = (b.wire.take (if j = i then _ else _)).flatMap _
        rw [h.told j]
        split
        · next e => subst e; rw [take_next hw, List.flatMap_append]; simp [heardAt]
        · rfl
    · refine ⟨_, hs, ?_, ?_, h.plain, ?_, wire⟩
      · intro j
        show (if j = i then _ else _ : World).station = _
        split
        · next e => subst e; exact h.station j
        · exact h.station j
      · intro j
        show (if j = i then _ else _) ≤ b.wire.length
        split
        · exact (List.getElem?_eq_some_iff.mp hw).1
        · exact h.pos j
      · intro j
        show eventsIn (if j = i then _ else _ : World).log = (b.wire.take (if j = i then _ else _)).flatMap _
        split
        · next e =>
          subst e
          simp only [World.logAll]
          rw [told_append, h.told j, take_next hw, List.flatMap_append, told_calls, h.station j]
          simp [heardAt, if_neg hne]
        · exact h.told j
  | foreign f =>
    refine ⟨_, rfl, h.station, ?_, ?_, ?_, ?_⟩
    · intro j
      show b.pos j ≤ (b.wire ++ _).length
      rw [List.length_append]
      exact Nat.le_add_right_of_le (h.pos j)
    · intro x hx
      rcases List.mem_append.mp hx with hx | hx
      · exact h.plain x hx
      · rw [List.mem_singleton.mp hx]
        exact plain_of_short (h2 f rfl)
    · intro j
      show eventsIn (b.nodes j).log = ((b.wire ++ _).take (b.pos j)).flatMap _
      rw [List.take_append_of_le_length (h.pos j), ← h.told j]
    · intro j
      show (b.wire ++ _).flatMap _ = _
      rw [List.flatMap_append, List.flatMap_append, h.wire j]
      simp [hearsOf, heardAt]

theorem busInv_run (b0 : Bus) (h0 : FreshBus b0) (ops : List BusOp) : ∀ (b : Bus) (done : List BusOp), BusInv b0 b done → CommandsOnly ops →
    ∃ b', b.run ops = .ok b' ∧ BusInv b0 b' (done ++ ops) := by
  induction ops with
  | nil => intro b done h _; exact ⟨b, rfl, by rw [List.append_nil]; exact h⟩
  | cons o ops ih =>
    intro b done h hc
    obtain ⟨c, hs, hi⟩ := busInv_step b0 b done o h0 h (by rintro i op rfl; exact hc.1 i op (List.mem_cons_self ..))
      (by rintro f rfl; exact hc.2 f (List.mem_cons_self ..))
    obtain ⟨d, hd, hj⟩ := ih c _ hi ⟨fun i op hm => hc.1 i op (List.mem_cons_of_mem _ hm), fun f hm => hc.2 f (List.mem_cons_of_mem _ hm)⟩
    refine ⟨d, ?_, by rw [List.append_assoc] at hj; exact hj⟩
    show (b.step o >>= fun c => c.run ops) = _
    rw [hs]
    exact hd

theorem busInv_fresh (b0 : Bus) (h0 : FreshBus b0) : BusInv b0 b0 [] := by
  refine ⟨fun _ => rfl, fun j => by rw [h0.pos]; omega, ?_, ?_, ?_⟩
  · intro x hx; rw [h0.wire] at hx; cases hx
  · intro j; rw [h0.log, h0.wire, List.take_nil]; rfl
  · intro j; rw [h0.wire]; rfl

/-- Any number of stations, whose applications give commands in any order and with any delay between sending and receiving, together with
other devices: no station fails; at any time each application has been told a beginning of what the commands of the other stations and the
frames of the other devices say, in the order of sending, and nothing else; and as soon as nothing of the others is left to receive it has
been told all of it. -/
theorem C64_broadcast (b0 : Bus) (h0 : FreshBus b0) (ops : List BusOp) (hc : CommandsOnly ops) :
    ∃ b, b0.run ops = .ok b ∧ ∀ j,
      eventsIn (b.nodes j).log <+: ops.flatMap (hearsOf (b0.nodes j).station.callbacks j) ∧
      (UpToDate b j → eventsIn (b.nodes j).log = ops.flatMap (hearsOf (b0.nodes j).station.callbacks j)) := by
  obtain ⟨b, hb, hi⟩ := busInv_run b0 h0 ops b0 [] (busInv_fresh b0 h0) hc
  rw [List.nil_append] at hi
  refine ⟨b, hb, fun j => ⟨?_, ?_⟩⟩
  · rw [hi.told j, ← hi.wire j]
    refine ⟨(b.wire.drop (b.pos j)).flatMap (heardAt (b0.nodes j).station.callbacks j), ?_⟩
    rw [← List.flatMap_append, List.take_append_drop]
  · intro hu
    rw [hi.told j, ← hi.wire j]
    conv => rhs; rw [← List.take_append_drop (b.pos j) b.wire, List.flatMap_append]
    have : (b.wire.drop (b.pos j)).flatMap (heardAt (b0.nodes j).station.callbacks j) = [] := by
      rw [List.flatMap_eq_nil_iff]
      intro x hx
      rw [heardAt, if_pos (hu x hx)]
    rw [this, List.append_nil]

/-- C64: a frame that an application gives to `SendPacket`, a command or a response, is put on the bus once, as coming from this node, with
its payload and all bits of its identifier but the hash, which is the one of the station. -/
theorem C64_packet (b : Bus) (i : Nat) (f : CanFrame) (cb : Nat) (hcb : (b.nodes i).station.callbacks.tx = some cb) :
    ∃ b' g, b.step (.call i (.sendPacket f)) = .ok b' ∧ b'.wire = b.wire ++ [(some i, g)] ∧ g.data = f.data ∧
      g.id.raw.toNat / 2 ^ 16 = f.id.raw.toNat / 2 ^ 16 ∧ g.id.raw.toNat % 2 ^ 16 = (b.nodes i).station.senderHash.toNat := by
  have hs : (b.nodes i).step (.sendPacket f) =
      .ok ((b.nodes i).logAll [.call (.tx cb { f with id := f.id.setHash (b.nodes i).station.senderHash })]) := by
    simp only [World.step, Station.SendPacket, Station.txSend, hcb]
    rfl
  refine ⟨_, { f with id := f.id.setHash (b.nodes i).station.senderHash }, by simp only [Bus.step, hs]; rfl, ?_, rfl, ?_, ?_⟩
  · simp [World.logAll, Bus.sent]
  · have h := (C01_setters f.id (b.nodes i).station.senderHash 0#8 false).1
    have := (b.nodes i).station.senderHash.isLt
    dsimp only
    omega
  · have h := (C01_setters f.id (b.nodes i).station.senderHash 0#8 false).1
    have := (b.nodes i).station.senderHash.isLt
    dsimp only
    omega

/-! ## C65: what stations know about the speed of an engine -/

/-- What a frame says about speed. -/
def speedIn (x : Option Nat × CanFrame) : List SpeedChange := (reaction { engine := some 0 } false x.2).flatMap speedOf

/-- Node `j` knows the frames up to `n`: those it has received and those it has sent. -/
structure Knows (b : Bus) (j n : Nat) : Prop where
  low : b.pos j ≤ n
  high : n ≤ b.wire.length
  mine : ∀ k x, b.pos j ≤ k → k < n → b.wire[k]? = some x → x.1 = some j
  others : ∀ k x, n ≤ k → b.wire[k]? = some x → x.1 ≠ some j
  known : known (b.nodes j).log = (b.wire.take n).flatMap speedIn

theorem known_append (a b : List LogEntry) : known (a ++ b) = known a ++ known b := List.flatMap_append

theorem known_tx (cb : Nat) (fs : List CanFrame) :
    known (fs.map (fun f => LogEntry.call (.tx cb f))) = fs.flatMap (fun f => (reaction { engine := some 0 } false f).flatMap speedOf) := by
  simp only [known, List.flatMap_map]

theorem known_reaction (cbs : Callbacks) (he : cbs.engine.isSome = true) (f : CanFrame) :
    known ((reaction cbs false f).map LogEntry.call) = (reaction { engine := some 0 } false f).flatMap speedOf := by
  obtain ⟨e, he⟩ := Option.isSome_iff_exists.mp he
  rw [reaction_redirect cbs, reaction_redirect { engine := some 0 }]
  simp only [known, List.flatMap_map, List.flatMap_assoc]
  congr 1
  funext c
  cases c <;> simp only [redirect, toward, he, Option.toList, List.map_cons, List.map_nil, List.flatMap_cons, List.flatMap_nil] <;> first
    | rfl
    | (cases cbs.system <;> rfl)
    | (cases cbs.accessory <;> rfl)

theorem knows_call (b : Bus) (i : Nat) (w : World) (fs : List CanFrame) (hu : UpToDate b i)
    (hk : known w.log = known (b.nodes i).log ++ (fs.map (fun f => (some i, f))).flatMap speedIn)
    (h : ∀ j, ∃ n, Knows b j n) (j : Nat) :
    ∃ n, Knows { b.setNode i w with wire := b.wire ++ fs.map (fun f => (some i, f)) } j n := by
  obtain ⟨n, k⟩ := h j
  by_cases e : j = i
  · subst e
    have hn : n = b.wire.length := by
      refine Nat.le_antisymm k.high (Nat.le_of_not_lt fun hlt => ?_)
      have h1 := List.getElem?_eq_getElem hlt
      refine k.others n _ (Nat.le_refl _) h1 (hu _ ?_)
      rw [List.mem_drop_iff_getElem]
      exact ⟨n - b.pos j, by have := k.low; omega, by congr 1; have := k.low; omega⟩
    subst hn
    refine ⟨(b.wire ++ fs.map (fun f => (some j, f))).length, ?_, Nat.le_refl _, ?_, ?_, ?_⟩
    · show b.pos j ≤ _
      rw [List.length_append]
      have := k.low
      omega
    · intro m x h1 h2 hx
      change (b.wire ++ _)[m]? = _ at hx
      rw [List.getElem?_append] at hx
      split at hx
      · next hm => exact k.mine m x h1 hm hx
      · obtain ⟨f, -, rfl⟩ := List.mem_map.mp (List.mem_of_getElem? hx)
        rfl
    · intro m x h1 hx
      change (b.wire ++ _)[m]? = _ at hx
      rw [List.getElem?_eq_none h1] at hx
      cases hx
    · show known (if j = j then w else _ : World).log = ((b.wire ++ _).take _).flatMap _
      rw [if_pos rfl, hk, k.known, List.take_length, List.take_length, List.flatMap_append]
  · refine ⟨n, k.low, ?_, ?_, ?_, ?_⟩
    · show n ≤ (b.wire ++ _).length
      rw [List.length_append]
      have := k.high
      omega
    · intro m x h1 h2 hx
      change (b.wire ++ _)[m]? = _ at hx
      rw [List.getElem?_append_left (by have := k.high; omega)] at hx
      exact k.mine m x h1 h2 hx
    · intro m x h1 hx
      change (b.wire ++ _)[m]? = _ at hx
      rw [List.getElem?_append] at hx
      split at hx
      · exact k.others m x h1 hx
      · obtain ⟨f, -, rfl⟩ := List.mem_map.mp (List.mem_of_getElem? hx)
        intro he
        injection he with he
        exact e he.symm
    · show known (if j = i then w else _ : World).log = ((b.wire ++ _).take _).flatMap _
      rw [if_neg e, k.known, List.take_append_of_le_length k.high]

theorem knows_step (b0 b : Bus) (done : List BusOp) (o : BusOp) (h0 : FreshBus b0) (h : BusInv b0 b done)
    (h1 : ∀ i op, o = .call i op → isCommand op = true) (hu : ∀ i op, o = .call i op → UpToDate b i)
    (hk : ∀ j, ∃ n, Knows b j n) (hw : b.wire.flatMap speedIn = done.flatMap asksSpeed) (b' : Bus) (hb : b.step o = .ok b') :
    (∀ j, ∃ n, Knows b' j n) ∧ b'.wire.flatMap speedIn = (done ++ [o]).flatMap asksSpeed := by
  cases o with
  | call i op =>
    obtain ⟨cb, fs, ht, hs⟩ := call_step b i op (h1 i op rfl) (by rw [h.station]; exact h0.tx i)
    rw [hs] at hb
    injection hb with hb; subst hb
    have hf : (fs.map (fun f => (some i, f))).flatMap speedIn = asksSpeed (.call i op) := by
      rw [List.flatMap_map, ← ht.speed i]
      rfl
    constructor
    · refine knows_call b i _ fs (hu i op rfl) ?_ hk
      simp only [World.logAll]
      rw [known_append, known_tx, List.flatMap_map]
      rfl
    · show (b.wire ++ _).flatMap _ = _
      rw [List.flatMap_append, List.flatMap_append, hw, hf]
      simp
  | receive i =>
    have hw' : b.wire.flatMap speedIn = (done ++ [BusOp.receive i]).flatMap asksSpeed := by
      rw [List.flatMap_append, hw]
      simp [asksSpeed]
    have he : (b.nodes i).station.callbacks.engine.isSome = true := by rw [h.station]; exact h0.engine i
    rcases receive_step b i h.plain he (by rw [h.station]; exact h0.parser i) with ⟨hn, hs⟩ | ⟨f, hn, hs⟩ | ⟨s, f, hn, hne, hs⟩
    · rw [hs] at hb; injection hb with hb; subst hb
      exact ⟨hk, hw'⟩
    · rw [hs] at hb; injection hb with hb; subst hb
      refine ⟨fun j => ?_, hw'⟩
      obtain ⟨n, k⟩ := hk j
      refine ⟨n, ?_, k.high, ?_, k.others, k.known⟩
      · show (if j = i then _ else _) ≤ n
        split
        · next e =>
          subst e
          have := k.low
          refine Nat.lt_of_le_of_ne this (fun hq => ?_)
          exact k.others _ _ (Nat.le_of_eq hq.symm) hn rfl
        · exact k.low
      · intro m x hm h2 hx
        refine k.mine m x ?_ h2 hx
        change (if j = i then _ else _) ≤ m at hm
        split at hm
        · next e => subst e; omega
        · exact hm
    · rw [hs] at hb; injection hb with hb; subst hb
      refine ⟨fun j => ?_, hw'⟩
      obtain ⟨n, k⟩ := hk j
      by_cases e : j = i
      · subst e
        obtain ⟨hlt, -⟩ := List.getElem?_eq_some_iff.mp hn
        have hq : n = b.pos j := by
          refine Nat.le_antisymm (Nat.le_of_not_lt fun hl => ?_) k.low
          exact hne (k.mine _ _ (Nat.le_refl _) hl hn)
        subst hq
        refine ⟨b.pos j + 1, ?_, hlt, ?_, ?_, ?_⟩
        · show (if j = j then _ else _) ≤ _
          rw [if_pos rfl]
        · intro m x hm h2 hx
          change (if j = j then _ else _) ≤ m at hm
          rw [if_pos rfl] at hm
          omega
        · intro m x hm hx
          exact k.others m x (by omega) hx
        · show known (if j = j then _ else _ : World).log = (b.wire.take _).flatMap _
          rw [if_pos rfl, take_next hn, List.flatMap_append, ← k.known]
          simp only [World.logAll]
          rw [known_append, known_reaction _ he]
          simp [speedIn]
      · refine ⟨n, ?_, k.high, ?_, k.others, ?_⟩
        · show (if j = i then _ else _) ≤ n
          rw [if_neg e]
          exact k.low
        · intro m x hm h2 hx
          change (if j = i then _ else _) ≤ m at hm
          rw [if_neg e] at hm
          exact k.mine m x hm h2 hx
        · show known (if j = i then _ else _ : World).log = _
          rw [if_neg e]
          exact k.known
  | foreign f =>
    injection hb with hb; subst hb
    constructor
    · intro j
      obtain ⟨n, k⟩ := hk j
      refine ⟨n, k.low, ?_, ?_, ?_, ?_⟩
      · show n ≤ (b.wire ++ _).length
        rw [List.length_append]
        have := k.high
        omega
      · intro m x hm h2 hx
        change (b.wire ++ _)[m]? = _ at hx
        rw [List.getElem?_append_left (by have := k.high; omega)] at hx
        exact k.mine m x hm h2 hx
      · intro m x hm hx
        change (b.wire ++ _)[m]? = _ at hx
        rw [List.getElem?_append] at hx
        split at hx
        · exact k.others m x hm hx
        · rw [List.mem_singleton.mp (List.mem_of_getElem? hx)]
          simp
      · show known (b.nodes j).log = ((b.wire ++ _).take _).flatMap _
        rw [k.known, List.take_append_of_le_length k.high]
    · show (b.wire ++ _).flatMap _ = _
      rw [List.flatMap_append, List.flatMap_append, hw]
      simp [speedIn, asksSpeed]

theorem knows_run (b0 : Bus) (h0 : FreshBus b0) (ops : List BusOp) : ∀ (b : Bus) (done : List BusOp), BusInv b0 b done → CommandsOnly ops →
    Polite b ops → (∀ j, ∃ n, Knows b j n) → b.wire.flatMap speedIn = done.flatMap asksSpeed →
    ∃ b', b.run ops = .ok b' ∧ (∀ j, ∃ n, Knows b' j n) ∧ b'.wire.flatMap speedIn = (done ++ ops).flatMap asksSpeed := by
  induction ops with
  | nil => intro b done h _ _ hk hw; exact ⟨b, rfl, hk, by rw [List.append_nil]; exact hw⟩
  | cons o ops ih =>
    intro b done h hc hp hk hw
    have hcmd : ∀ i op, o = .call i op → isCommand op = true := by rintro i op rfl; exact hc.1 i op (List.mem_cons_self ..)
    obtain ⟨c, hs, hi⟩ := busInv_step b0 b done o h0 h hcmd (by rintro f rfl; exact hc.2 f (List.mem_cons_self ..))
    obtain ⟨k1, k2⟩ := knows_step b0 b done o h0 h hcmd hp.1 hk hw c hs
    obtain ⟨d, hd, hj, hq⟩ := ih c _ hi ⟨fun i op hm => hc.1 i op (List.mem_cons_of_mem _ hm), fun f hm => hc.2 f (List.mem_cons_of_mem _ hm)⟩
      (hp.2 c hs) k1 k2
    refine ⟨d, ?_, hj, by rw [List.append_assoc] at hq; exact hq⟩
    show (b.step o >>= fun c => c.run ops) = _
    rw [hs]
    exact hd

/-- If every application has received all there is from the others before it gives a command, then every station that has received all there
is knows the same about the speed of every engine: what the last command or frame that concerns it said.
Partial: the claim has no condition on when commands are given; `C65_race` shows that without it stations can disagree for good. -/
theorem C65_agreement_partial (b0 : Bus) (h0 : FreshBus b0) (ops : List BusOp) (hc : CommandsOnly ops) (hp : Polite b0 ops) :
    ∃ b, b0.run ops = .ok b ∧ ∀ j, UpToDate b j → ∀ uid, speed uid (known (b.nodes j).log) = speed uid (ops.flatMap asksSpeed) := by
  obtain ⟨b, hb, hk, hw⟩ := knows_run b0 h0 ops b0 [] (busInv_fresh b0 h0) hc hp (by
    intro j
    refine ⟨0, by rw [h0.pos], by omega, by intro k x _ h; omega, ?_, ?_⟩
    · intro k x _ hx; rw [h0.wire] at hx; cases hx
    · rw [h0.log]; rfl) (by rw [h0.wire]; rfl)
  rw [List.nil_append] at hw
  refine ⟨b, hb, fun j hu uid => ?_⟩
  obtain ⟨n, k⟩ := hk j
  have hn : n = b.wire.length := by
    refine Nat.le_antisymm k.high (Nat.le_of_not_lt fun hlt => ?_)
    have h1 := List.getElem?_eq_getElem hlt
    refine k.others n _ (Nat.le_refl _) h1 (hu _ ?_)
    rw [List.mem_drop_iff_getElem]
    exact ⟨n - b.pos j, by have := k.low; omega, by congr 1; have := k.low; omega⟩
  rw [k.known, hn, List.take_length, hw]

/-! ## Concrete installations -/

/-- Any number of stations, all with the same callbacks, and nothing sent yet. -/
def plainBus : Bus :=
  { nodes := fun i => { World.new ⟨32⟩ (fun _ => .app) (fun _ => Locomotive.construct []) with
      station := { senderHash := BitVec.ofNat 16 (0x300 + i), callbacks := { tx := some 1, engine := some 2, system := some 3, accessory := some 4 } } }
    wire := []
    pos := fun _ => 0 }

theorem plainBus_fresh : FreshBus plainBus := ⟨rfl, fun _ => rfl, fun _ => rfl, fun _ => rfl, fun _ => rfl, fun _ => rfl⟩

/-- A check of the outcome of a history, in a form that can be computed. -/
def busOutcome (b : Bus) (ops : List BusOp) (p : Bus → Bool) : Bool :=
  match b.run ops with
  | .ok c => p c
  | .error _ => false

theorem busOutcome_true {b : Bus} {ops : List BusOp} {p : Bus → Bool} (h : busOutcome b ops p = true) : ∃ c, b.run ops = .ok c ∧ p c = true := by
  unfold busOutcome at h
  split at h
  · next c hc => exact ⟨c, hc, h⟩
  · cases h

/-- C63 is not vacuous: asking for all functions does put 16 frames on the bus, and two nodes that take them all put nothing on it. -/
example : busOutcome plainBus (.call 0 (.requestAllFunctions { uid := 5#32 }) :: List.replicate 16 (.receive 1) ++ List.replicate 16 (.receive 2))
    (fun c => c.wire.length = 16 ∧ c.pos 1 = 16 ∧ c.pos 2 = 16) = true := by decide +kernel

/-- Three nodes and another device. -/
def busCase : List BusOp :=
  [.call 0 (.sendVelocity { uid := 5#32 } 2000#16), .call 1 (.sendFunction { uid := 5#32 } 3#8 true), .receive 2,
    .foreign { id := ⟨0x00000301#32⟩, data := { dlc := 5#8, b4 := 2#8 } }, .call 2 (.sendAccessory ⟨7#32⟩ .DCC TurnoutDirection.RED 1#8),
    .call 0 (.sendDirection { uid := 5#32 } 9#32), .receive 2, .receive 2, .receive 2, .receive 0, .receive 0]

theorem busCase_commands : CommandsOnly busCase := by
  constructor
  · intro i op h
    simp only [busCase, List.mem_cons, List.not_mem_nil, or_false, BusOp.call.injEq, reduceCtorEq, false_or] at h
    rcases h with ⟨-, rfl⟩ | ⟨-, rfl⟩ | ⟨-, rfl⟩ | ⟨-, rfl⟩ <;> rfl
  · intro f h
    simp only [busCase, List.mem_cons, List.not_mem_nil, or_false, BusOp.foreign.injEq, reduceCtorEq, false_or] at h
    subst h
    decide

/-- C64 is not vacuous: node 2 has been told everything, node 0 a beginning, node 1 nothing yet; nobody hears of the direction that does not
exist. -/
example : busOutcome plainBus busCase (fun c =>
    eventsIn (c.nodes 2).log = [.velocity 2 5#32 1000, .function 2 5#32 3 true, .allVelocity 2 0] ∧
    eventsIn (c.nodes 0).log = [.function 2 5#32 3 true] ∧ eventsIn (c.nodes 1).log = [] ∧ c.wire.length = 4) = true := by decide +kernel

/-- Two nodes command the same engine before either has heard of the other, and then receive everything. -/
def raceOps : List BusOp :=
  [.call 0 (.sendVelocity { uid := 5#32 } 200#16), .call 1 (.sendVelocity { uid := 5#32 } 100#16), .receive 0, .receive 0, .receive 1, .receive 1]

/-- The claim of C65 without the condition is false: after this history both nodes have received all there is, and one of them takes the
speed to be 100, the other 200. -/
theorem C65_race : CommandsOnly raceOps ∧ ∃ b, plainBus.run raceOps = .ok b ∧ UpToDate b 0 ∧ UpToDate b 1 ∧
    speed 5#32 (known (b.nodes 0).log) = some 100 ∧ speed 5#32 (known (b.nodes 1).log) = some 200 := by
  refine ⟨⟨?_, ?_⟩, ?_⟩
  · intro i op h
    simp only [raceOps, List.mem_cons, List.not_mem_nil, or_false, BusOp.call.injEq, reduceCtorEq] at h
    rcases h with ⟨-, rfl⟩ | ⟨-, rfl⟩ <;> rfl
  · intro f h
    simp [raceOps] at h
  · have h : busOutcome plainBus raceOps (fun c => c.wire.length = 2 ∧ c.pos 0 = 2 ∧ c.pos 1 = 2 ∧
        speed 5#32 (known (c.nodes 0).log) = some 100 ∧ speed 5#32 (known (c.nodes 1).log) = some 200) = true := by decide +kernel
    obtain ⟨c, hc, h⟩ := busOutcome_true h
    simp only [decide_eq_true_eq] at h
    obtain ⟨h1, h2, h3, h4, h5⟩ := h
    refine ⟨c, hc, ?_, ?_, h4, h5⟩
    · intro x hx; rw [h2, List.drop_of_length_le (by omega)] at hx; cases hx
    · intro x hx; rw [h3, List.drop_of_length_le (by omega)] at hx; cases hx

/-- The same two commands, the second one given after the first has been received. -/
def politeOps : List BusOp :=
  [.call 0 (.sendVelocity { uid := 5#32 } 200#16), .receive 1, .call 1 (.sendVelocity { uid := 5#32 } 100#16), .receive 0, .receive 0]

/-- C65 is not vacuous: the history is polite, and both nodes take the speed to be 100. -/
theorem C65_polite_case : Polite plainBus politeOps ∧ busOutcome plainBus politeOps (fun c =>
    speed 5#32 (known (c.nodes 0).log) = some 100 ∧ speed 5#32 (known (c.nodes 1).log) = some 100) = true := by
  refine ⟨⟨?_, fun c hc => ⟨?_, fun d hd => ⟨?_, fun e he => ⟨?_, fun f hf => ⟨?_, fun g hg => trivial⟩⟩⟩⟩⟩, by decide +kernel⟩
  · intro i op h x hx; cases hx
  · intro i op h; cases h
  · intro i op h
    injection h with h1 h2
    subst h1
    have h : busOutcome plainBus (politeOps.take 2) (fun c => c.wire.length = 1 ∧ c.pos 1 = 1) = true := by decide +kernel
    obtain ⟨d', hd', h⟩ := busOutcome_true h
    have : d' = d := by
      have : plainBus.run (politeOps.take 2) = .ok d := by
        show (plainBus.step _ >>= fun c => c.run _) = _
        rw [hc]
        show (c.step _ >>= fun c => c.run _) = _
        rw [hd]
        rfl
      rw [this] at hd'
      injection hd' with hd'
      exact hd'.symm
    subst this
    simp only [decide_eq_true_eq] at h
    intro x hx
    rw [h.2, List.drop_of_length_le (by omega)] at hx
    cases hx
  · intro i op h; cases h
  · intro i op h; cases h

end RR32
