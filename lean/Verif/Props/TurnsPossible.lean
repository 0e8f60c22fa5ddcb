import Verif.Props.Turns

/-! # C91: such histories exist -/

set_option autoImplicit false

namespace RR32

open Spec

/-- The frames on the bus are frames of CAN. -/
def Short (b : Bus) : Prop := ∀ x ∈ b.wire, x.2.data.dlc.toNat ≤ 8

theorem runs_append (b : Bus) (l m : List BusOp) : b.run (l ++ m) = (b.run l >>= fun c => c.run m) := by
  unfold Bus.run
  rw [List.foldlM_append]

theorem runs_cons (b : Bus) (o : BusOp) (l : List BusOp) : b.run (o :: l) = (b.step o >>= fun c => c.run l) := rfl

/-- A station that receives until there is no more. -/
theorem receive_all (k : Nat) (b : Bus) (i : Nat) (hk : b.pos i + k = b.wire.length) (u : World)
    (h : (b.nodes i).run (((b.wire.drop (b.pos i)).filter (fun x => x.1 ≠ some i)).map (fun x => .handle x.2)) = .ok u) :
    ∃ b', b.run (List.replicate k (.receive i)) = .ok b' ∧ b'.wire = b.wire ∧ b'.nodes i = u ∧ b'.pos i = b.wire.length ∧
      ∀ j, j ≠ i → b'.nodes j = b.nodes j ∧ b'.pos j = b.pos j := by
  induction k generalizing b with
  | zero =>
    rw [List.drop_of_length_le (by omega)] at h
    cases h
    exact ⟨b, rfl, rfl, rfl, by omega, fun _ _ => ⟨rfl, rfl⟩⟩
  | succ k ih =>
    have hlt : b.pos i < b.wire.length := by omega
    rw [List.drop_eq_getElem_cons hlt] at h
    rw [List.replicate_succ]
    simp only [runs_cons]
    have hget : b.wire[b.pos i]? = some b.wire[b.pos i] := List.getElem?_eq_getElem hlt
    generalize hx : b.wire[b.pos i] = x at h hget
    obtain ⟨s, f⟩ := x
    by_cases hs : s = some i
    · rw [List.filter_cons_of_neg (by simp [hs])] at h
      obtain ⟨b', h1, h2, h3, h4, h5⟩ := ih (b.advance i) (by simp only [Bus.advance, if_true]; omega) (by simpa [Bus.advance] using h)
      refine ⟨b', ?_, h2, h3, h4, fun j hj => ⟨(h5 j hj).1, ?_⟩⟩
      · simp only [Bus.step, hget, if_pos hs]
        exact h1
      · rw [(h5 j hj).2]
        simp only [Bus.advance, if_neg hj]
    · rw [List.filter_cons_of_pos (by simp [hs]), List.map_cons, World.run_cons] at h
      obtain ⟨w, h6, h7⟩ := bind_ok h
      obtain ⟨b', h1, h2, h3, h4, h5⟩ := ih ((b.advance i).setNode i w) (by simp only [Bus.advance, Bus.setNode, if_true]; omega)
        (by simpa [Bus.advance, Bus.setNode] using h7)
      refine ⟨b', ?_, h2, h3, h4, fun j hj => ⟨?_, ?_⟩⟩
      · simp only [Bus.step, hget, if_neg hs, h6]
        exact h1
      · rw [(h5 j hj).1]
        simp only [Bus.setNode, if_neg hj, Bus.advance]
      · rw [(h5 j hj).2]
        simp only [Bus.setNode, if_neg hj, Bus.advance]

/-- A station that waits for nothing can take every frame. -/
theorem idle_can {w : World} (cb : Nat) (htx : w.station.callbacks.tx = some cb) (he : w.station.callbacks.engine.isSome = true)
    (hp : w.processing = false) (l : List CanFrame) (hl : ∀ f ∈ l, f.data.dlc.toNat ≤ 8) : ∃ v, w.run (l.map .handle) = .ok v := by
  induction l generalizing w with
  | nil => exact ⟨w, rfl⟩
  | cons f l ih =>
    have hf := hl f (List.mem_cons_self ..)
    obtain ⟨u, hu⟩ : ∃ u, w.step (.handle f) = .ok u := by
      show ∃ u, w.stationCalls (w.station.HandlePacket w.processing f) = .ok u
      rw [HandlePacket_eq, if_neg (by rintro ⟨h1, -⟩; rw [h1] at he; cases he), if_neg (by rintro ⟨-, h⟩; omega), hp]
      show ∃ u, w.runCalls _ = .ok u
      by_cases hf : commandOf f = 0x21
      · have hr : reaction w.station.callbacks false f = [] := by
          unfold reaction
          rw [hf]
          rfl
        rw [hr]
        exact ⟨w, rfl⟩
      · rw [World.runCalls_plain w _ (control_reaction w.station.callbacks false f hf).2]
        exact ⟨_, rfl⟩
    have hs := idle_run (l := [.handle f]) cb htx he hp (by intro o ho; rw [List.mem_singleton.mp ho]; exact Or.inr ⟨f, rfl⟩)
      (by rw [World.run_cons, hu]; rfl)
    obtain ⟨v, hv⟩ := ih (w := u) (by rw [hs.station]; exact htx) (by rw [hs.station]; exact he) (by rw [hs.processing]; exact hp)
      (fun g hg => hl g (List.mem_cons_of_mem _ hg))
    exact ⟨v, by rw [List.map_cons, World.run_cons, hu]; exact hv⟩

theorem sent_mem {l : List LogEntry} {f : CanFrame} (h : f ∈ Bus.sent l) : ∃ cb, LogEntry.call (.tx cb f) ∈ l := by
  unfold Bus.sent at h
  obtain ⟨e, he, h⟩ := List.mem_filterMap.mp h
  split at h
  · injection h with h; subst h; exact ⟨_, he⟩
  · cases h

/-- Calls at a station, on the bus. -/
theorem calls_can {ops : List Op} {b : Bus} {i : Nat} {w : World} (hops : ∀ g, Op.sendPacket g ∉ ops) (hb : Short b)
    (h : (b.nodes i).run ops = .ok w) : ∃ b', b.run (ops.map (.call i)) = .ok b' ∧ Short b' := by
  induction ops generalizing b with
  | nil => exact ⟨b, rfl, hb⟩
  | cons o ops ih =>
    rw [World.run_cons] at h
    obtain ⟨v, h1, h2⟩ := bind_ok h
    obtain ⟨-, new, hlog, hnew⟩ := World.step_tx _ _ _ h1
    have hstep : b.step (.call i o) = .ok { b.setNode i v with wire := b.wire ++ (Bus.sent new).map (fun f => (some i, f)) } := by
      simp only [Bus.step, h1]
      show Except.ok { b.setNode i v with wire := b.wire ++ (Bus.sent (v.log.drop (b.nodes i).log.length)).map (fun f => (some i, f)) } = _
      rw [hlog, List.drop_left]
    obtain ⟨b', h3, h4⟩ := ih (b := { b.setNode i v with wire := b.wire ++ (Bus.sent new).map (fun f => (some i, f)) })
      (fun g hg => hops g (List.mem_cons_of_mem _ hg)) (by
        intro x hx
        rcases List.mem_append.mp hx with hx | hx
        · exact hb x hx
        · obtain ⟨f, hf, rfl⟩ := List.mem_map.mp hx
          obtain ⟨cb, hm⟩ := sent_mem hf
          have := (hnew cb f hm).2
          cases o <;> first | exact this.2.2.2.1 | exact (hops _ (List.mem_cons_self ..)).elim) (by
        simpa [Bus.setNode] using h2)
    exact ⟨b', by rw [List.map_cons, runs_cons, hstep]; exact h3, h4⟩

theorem next_plain (a : App) (w : World) (x : Next) (g : CanFrame) : Op.sendPacket g ∉ x.ops a w := by
  cases x <;> simp [Next.ops, page, load]

theorem wireStream_short {first : CanFrame} {rest : List CanFrame} {items : List Item} {tail : Tail} (h : WireStream first rest items tail) :
    ∀ f ∈ first :: rest, f.data.dlc.toNat ≤ 8 := by
  intro f hf
  rcases List.mem_cons.mp hf with rfl | hf
  · rcases h.isFirst with h | h <;> omega
  · have := h.data f.data (List.mem_map_of_mem hf)
    omega

theorem foreigns (b : Bus) (l : List CanFrame) :
    b.run (l.map .foreign) = .ok { b with wire := b.wire ++ l.map (fun f => (none, f)) } := by
  induction l generalizing b with
  | nil => show Except.ok b = _; simp
  | cons f l ih =>
    rw [List.map_cons, runs_cons]
    show Bus.run _ _ = _
    rw [ih]
    simp

/-- An exchange that is possible for a station is possible on the bus. -/
theorem turn_can {a : App} {db : List EngineRecord} {b : Bus} {i : Nat} {x : Next} {u : World} (hb : Short b) (hu : UpToDate b i)
    (hp : b.pos i ≤ b.wire.length) (h : Exchange db (b.nodes i) (x.ops a (b.nodes i)) u) :
    ∃ b', Turn a db i x b b' ∧ b'.nodes i = u ∧ Short b' := by
  obtain ⟨v, first, rest, h1, h2, h3⟩ := h
  obtain ⟨b1, k1, k2⟩ := calls_can (next_plain a _ x) hb h1
  obtain ⟨c1, c2, -, lg, c3, c4⟩ := calls_run k1
  rw [h1] at c1
  injection c1 with c1
  subst c1
  obtain ⟨q, items, tail, hq, hw, hrest⟩ := id h2
  have hshort := wireStream_short hw
  let b2 : Bus := { b1 with wire := b1.wire ++ (first :: rest).map (fun f => (none, f)) }
  have hown : ((Bus.sent lg).map (fun f => (some i, f))).filter (fun x => x.1 ≠ some i) = [] := by
    rw [List.filter_eq_nil_iff]
    intro y hy
    obtain ⟨f, -, rfl⟩ := List.mem_map.mp hy
    simp
  have hold : (b.wire.drop (b.pos i)).filter (fun x => x.1 ≠ some i) = [] := by
    rw [List.filter_eq_nil_iff]
    intro y hy
    simp [hu y hy]
  have hnew : ((first :: rest).map (fun f => ((none : Option Nat), f))).filter (fun x => x.1 ≠ some i) =
      (first :: rest).map (fun f => ((none : Option Nat), f)) := by
    rw [List.filter_eq_self]
    intro y hy
    obtain ⟨f, -, rfl⟩ := List.mem_map.mp hy
    simp
  have hp1 : b1.pos i ≤ b1.wire.length := by rw [c2, c4, List.length_append]; omega
  have hhears : ((b2.wire.drop (b2.pos i)).filter (fun x => x.1 ≠ some i)).map (fun x => Op.handle x.2) = (first :: rest).map .handle := by
    show (((b1.wire ++ _).drop (b1.pos i)).filter _).map _ = _
    rw [List.drop_append_of_le_length hp1, c2, c4, List.drop_append_of_le_length hp, List.filter_append, List.filter_append, hold, hown, hnew,
      List.nil_append, List.nil_append, List.map_map]
    rfl
  have hp2 : b2.pos i ≤ b2.wire.length := by
    show b1.pos i ≤ (b1.wire ++ _).length
    rw [List.length_append]
    omega
  obtain ⟨b', r1, r2, r3, r4, r5⟩ := receive_all (b2.wire.length - b2.pos i) b2 i (by omega) u (by rw [hhears]; exact h3)
  have hsent : sentSince (b.nodes i) (b1.nodes i) = (b1.wire.drop b.wire.length).map (·.2) := by
    unfold sentSince
    rw [c3, c4, List.drop_left, List.drop_left, List.map_map]
    show _ = List.map id (Bus.sent lg)
    rw [List.map_id]
    rfl
  have hctl : ((first :: rest).filter (fun f => !isControl (.handle f))) = first :: rest := by
    rw [List.filter_eq_self]
    intro f hf
    simp [isControl, hw.command f hf]
  refine ⟨b', ⟨hu, ⟨b1, (first :: rest).map .foreign ++ List.replicate (b2.wire.length - b2.pos i) (.receive i), first, rest, k1, ?_, ?_, ?_, ?_⟩, ?_⟩,
    r3, ?_⟩
  · rw [← hsent]; exact h2
  · intro o ho
    rcases List.mem_append.mp ho with ho | ho
    · obtain ⟨f, -, rfl⟩ := List.mem_map.mp ho
      trivial
    · rw [(List.mem_replicate.mp ho).2]
      trivial
  · rw [runs_append, foreigns]
    exact r1
  · rw [r2]
    show streamsFor i ((b1.wire ++ _).drop _) = _
    rw [List.drop_left, streamsFor, hnew, List.map_map]
    show (List.map id (first :: rest)).filter _ = _
    rw [List.map_id, hctl]
  · intro y hy
    rw [r4, r2, List.drop_of_length_le (Nat.le_refl _)] at hy
    cases hy
  · intro y hy
    rw [r2] at hy
    rcases List.mem_append.mp hy with hy | hy
    · exact k2 y hy
    · obtain ⟨f, hf, rfl⟩ := List.mem_map.mp hy
      exact hshort f hf

/-- And so is a session. -/
theorem session_can {apps : Nat → App} {db : List EngineRecord} {i : Nat} {xs : List Next} {w : World} {us : List World}
    (h : Session (apps i) db w xs us) (b : Bus) (hw : b.nodes i = w) (hb : Short b) (hu : UpToDate b i) (hp : ∀ j, b.pos j ≤ b.wire.length) :
    ∃ b', Turns apps db b (xs.map (i, ·)) b' ∧ Short b' ∧ ∀ j, b'.pos j ≤ b'.wire.length := by
  induction h generalizing b with
  | nil w => exact ⟨b, .done b, hb, hp⟩
  | cons h more ih =>
    subst hw
    obtain ⟨c, h1, h2, h3⟩ := turn_can hb hu (hp i) h
    obtain ⟨b', h4, h5, h6⟩ := ih c h2 h3 h1.caughtUp (fun j => h1.pos j (hp j))
    exact ⟨b', .turn h1 h4, h5, h6⟩

theorem Turns.append {apps : Nat → App} {db : List EngineRecord} {b c b' : Bus} {xs ys : List (Nat × Next)} (h : Turns apps db b xs c)
    (h' : Turns apps db c ys b') : Turns apps db b (xs ++ ys) b' := by
  induction h with
  | done => exact h'
  | between o ho h more ih => exact .between o ho h (ih h')
  | turn h more ih => exact .turn h (ih h')

/-- Receiving everything, between turns. -/
theorem catch_up {apps : Nat → App} {db : List EngineRecord} {b b' : Bus} {ops : List BusOp} (ho : ∀ o ∈ ops, Harmless o)
    (h : b.run ops = .ok b') : Turns apps db b [] b' := by
  induction ops generalizing b with
  | nil => cases h; exact .done _
  | cons o ops ih =>
    obtain ⟨c, h1, h2⟩ := bind_ok (show (b.step o >>= fun c => c.run ops) = .ok b' from h)
    exact .between o (ho o (List.mem_cons_self ..)) h1 (ih (fun x hx => ho x (List.mem_cons_of_mem _ hx)) h2)

/-- C91: with every master, any number of stations can take turns in any order, each loading the next engine of the database in its turn. -/
theorem C91_possible (apps : Nat → App) (db : List EngineRecord) (hnames : (db.map (·.name)).Nodup) (hdb : db.length ≤ 255)
    (hv : ∀ r ∈ db, r.Valid) (b : Bus) (hb : Short b) (hp : ∀ j, b.pos j ≤ b.wire.length) (hr : ∀ j, Ready (apps j) (b.nodes j))
    (he : ∀ j, (b.nodes j).station.callbacks.engine.isSome = true) (hi : ∀ j, (b.nodes j).processing = false)
    (order : List Nat) (ho : ∀ j, order.count j ≤ db.length) :
    ∃ xs b', Turns apps db b xs b' ∧ (∀ j, (xs.filter (fun x => x.1 = j)).map (·.2) = mirrorSteps (order.count j)) := by
  have hlen : ∀ r ∈ db, r.name.length ≤ 16 := fun r h => (hv r h).nameLength
  suffices h : ∀ l : List Nat, (∀ j, l.count j ≤ db.length) → ∃ xs b', Turns apps db b xs b' ∧ Short b' ∧ (∀ j, b'.pos j ≤ b'.wire.length) ∧
      ∀ j, (xs.filter (fun x => x.1 = j)).map (·.2) = mirrorSteps (l.count j) by
    obtain ⟨xs, b', h1, -, -, h2⟩ := h order ho
    exact ⟨xs, b', h1, h2⟩
  suffices h : ∀ l : List Nat, (∀ j, l.reverse.count j ≤ db.length) → ∃ xs b', Turns apps db b xs b' ∧ Short b' ∧
      (∀ j, b'.pos j ≤ b'.wire.length) ∧ ∀ j, (xs.filter (fun x => x.1 = j)).map (·.2) = mirrorSteps (l.reverse.count j) by
    intro l hl
    have := h l.reverse
    rw [List.reverse_reverse] at this
    exact this hl
  intro l
  induction l with
  | nil =>
    intro _
    exact ⟨[], b, .done b, hb, hp, fun j => by simp [mirrorSteps]⟩
  | cons i l ih =>
    intro hl
    simp only [List.count_reverse] at hl ih ⊢
    obtain ⟨xs, c, t1, t2, t3, t4⟩ := ih (fun j => Nat.le_trans (List.count_le_count_cons) (hl j))
    have hn : l.count i < db.length := by
      have := hl i
      rw [List.count_cons_self] at this
      omega
    -- where station i is
    obtain ⟨us, m, hs, hm, hz⟩ := C91_turns_partial t1 i (hp i)
    rw [t4 i] at hs
    obtain ⟨k1, k2, k3, -, -, k6⟩ := busy_invariant (apps i) db hnames hlen (b.nodes i) (hr i) (he i) (hi i) _ (by omega) (by omega) us hs
    have same := idle_run _ k1.tx k2 k3 hm hz
    have j1 := same.ready k1
    have j2 : (c.nodes i).station.callbacks.engine.isSome = true := by rw [same.station]; exact k2
    have j3 : (c.nodes i).processing = false := by rw [same.processing]; exact k3
    -- it catches up
    obtain ⟨v, hvv⟩ := idle_can _ j1.tx j2 j3 (((c.wire.drop (c.pos i)).filter (fun x => x.1 ≠ some i)).map (·.2)) (by
      intro f hf
      obtain ⟨x, hx, rfl⟩ := List.mem_map.mp hf
      exact t2 x (List.mem_of_mem_drop (List.mem_of_mem_filter hx)))
    have hvv : (c.nodes i).run (((c.wire.drop (c.pos i)).filter (fun x => x.1 ≠ some i)).map (fun x => Op.handle x.2)) = .ok v := by
      rw [List.map_map] at hvv
      exact hvv
    obtain ⟨d, r1, r2, r3, r4, r5⟩ := receive_all (c.wire.length - c.pos i) c i (by have := t3 i; omega) v hvv
    have same2 := idle_run _ j1.tx j2 j3 (l := ((c.wire.drop (c.pos i)).filter (fun x => x.1 ≠ some i)).map (fun x => .handle x.2)) (by
      intro o ho
      obtain ⟨x, -, rfl⟩ := List.mem_map.mp ho
      exact Or.inr ⟨_, rfl⟩) hvv
    have t5 : Turns apps db c [] d := catch_up (by
      intro o ho
      rw [(List.mem_replicate.mp ho).2]
      trivial) r1
    -- and asks
    obtain ⟨vs, hvs⟩ := step_possible (apps i) db hnames hdb hv (l.count i) hn v (same2.ready j1) (by
      intro ho
      obtain ⟨e, e1, e2⟩ := k6 ho
      exact ⟨e, by rw [same2.consumers, same.consumers]; exact e1, e2⟩)
    obtain ⟨b', t6, t7, t8⟩ := session_can hvs d r3 (by intro x hx; rw [r2] at hx; exact t2 x hx) (by
      intro y hy
      rw [r4, r2, List.drop_of_length_le (Nat.le_refl _)] at hy
      cases hy) (by
      intro j
      rw [r2]
      by_cases hj : j = i
      · subst hj; rw [r4]
      · rw [(r5 j hj).2]; exact t3 j)
    refine ⟨_, b', t1.append (t5.append t6), t7, t8, ?_⟩
    intro j
    rw [List.nil_append, List.filter_append, List.map_append, t4 j]
    by_cases hj : i = j
    · subst hj
      rw [List.count_cons_self, mirrorSteps_succ]
      congr 1
      rw [List.filter_eq_self.mpr (by intro x hx; obtain ⟨y, -, rfl⟩ := List.mem_map.mp hx; simp), List.map_map]
      exact List.map_id _
    · rw [List.count_cons_of_ne hj, List.filter_eq_nil_iff.mpr (by intro x hx; obtain ⟨y, -, rfl⟩ := List.mem_map.mp hx; simpa using hj)]
      simp

end RR32
