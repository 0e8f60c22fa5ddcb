import Verif.Model.Broadcast
import Verif.Props.Ideal
import Verif.Props.Settled

/-!
# C114: the ideal bus and the one with receive buffers, with callbacks that call back
-/

set_option autoImplicit false

namespace RR32

open Spec

section

variable {P : Nat → Program} {depth : Nat}

theorem busWith_append (b : Bus) (xs ys : List BusOp) : b.runWith P depth (xs ++ ys) = b.runWith P depth xs >>= fun c => c.runWith P depth ys :=
  List.foldlM_append ..

theorem netWith_append (n : Net) (xs ys : List BusOp) : n.runWith P depth (xs ++ ys) = n.runWith P depth xs >>= fun c => c.runWith P depth ys :=
  List.foldlM_append ..

theorem busWith_one (b b' : Bus) (o : BusOp) (h : (b.stepWith P depth o).Returns b') : (b.runWith P depth [o]).Returns b' := by
  unfold Bus.runWith
  rw [List.foldlM_cons]
  exact returns_bind.mpr ⟨b', h, rfl⟩

theorem netWith_one (n n' : Net) (o : BusOp) (h : (n.stepWith P depth o).Returns n') : (n.runWith P depth [o]).Returns n' := by
  unfold Net.runWith
  rw [List.foldlM_cons]
  exact returns_bind.mpr ⟨n', h, rfl⟩

theorem alike_give {S : Nat → Prop} {b : Bus} {n : Net} (h : Alike S b n) (i : Nat) (w : World) (hl : ∀ j, S j → (n.advance i w).lost j = 0) :
    Alike S (b.give i w) (n.advance i w) := by
  have hn : (b.setNode i w).nodes = (n.setNode i w).nodes := by
    show (fun m => if m = i then w else b.nodes m) = _
    rw [h.nodes]
    rfl
  have := alike_put (b := b.setNode i w) (n := n.setNode i w) ⟨hn, h.wire, h.pos, h.queue⟩ _ hl (b.setNode i w).nodes hn
  unfold Bus.give
  rw [h.nodes]
  exact this

/-- Frames of its own are skipped by a receive loop. -/
theorem skip_ownWith (b : Bus) (i : Nat) (f : CanFrame) (q : List CanFrame) (h : ofOthers i (b.wire.drop (b.pos i)) = f :: q) :
    ∃ (k p : Nat) (s : Option Nat), (b.runWith P depth (List.replicate k (.receive i))).Returns { b with pos := fun m => if m = i then p else b.pos m } ∧
      b.wire[p]? = some (s, f) ∧ s ≠ some i ∧ ofOthers i (b.wire.drop (p + 1)) = q := by
  obtain ⟨l, hl⟩ : ∃ l, l = b.wire.drop (b.pos i) := ⟨_, rfl⟩
  induction l generalizing b with
  | nil => rw [← hl] at h; cases h
  | cons x l ih =>
    have hx : b.wire[b.pos i]? = some x := by
      have := congrArg List.head? hl
      rw [List.head?_drop] at this
      exact this.symm
    have hd : b.wire.drop (b.pos i + 1) = l := by
      have := congrArg List.tail hl
      rw [List.tail_drop] at this
      exact this.symm
    obtain ⟨s, g⟩ := x
    by_cases hs : s = some i
    · have hstep : b.stepWith P depth (.receive i) = pure (b.advance i) := by
        unfold Bus.stepWith
        dsimp only
        rw [hx]
        dsimp only
        rw [if_pos hs]
      have hpos : (b.advance i).pos i = b.pos i + 1 := if_pos rfl
      obtain ⟨k, p, s', a1, a2, a3, a4⟩ := ih (b.advance i)
        (by
          rw [hpos]
          show ofOthers i (b.wire.drop (b.pos i + 1)) = _
          rw [hd]
          rw [← hl] at h
          simpa [ofOthers, hs] using h)
        (by rw [hpos]; exact hd.symm)
      refine ⟨k + 1, p, s', ?_, a2, a3, a4⟩
      have e : ({ b.advance i with pos := fun m => if m = i then p else (b.advance i).pos m } : Bus) = { b with pos := fun m => if m = i then p else b.pos m } := by
        show Bus.mk _ _ _ = Bus.mk _ _ _
        congr 1
        funext m
        by_cases hm : m = i
        · rw [if_pos hm, if_pos hm]
        · rw [if_neg hm, if_neg hm]
          exact if_neg hm
      rw [e] at a1
      show (b.stepWith P depth (.receive i) >>= fun c => c.runWith P depth (List.replicate k (.receive i))).Returns _
      rw [hstep]
      exact a1
    · refine ⟨0, b.pos i, s, ?_, ?_, hs, ?_⟩
      · refine World.returns_pure.mpr ?_
        show Bus.mk _ _ _ = Bus.mk _ _ _
        congr 1
        funext m
        split
        · next e => rw [e]
        · rfl
      · rw [← hl] at h
        rw [hx]
        have : g = f := by
          simp [ofOthers, hs] at h
          exact h.1
        rw [this]
      · rw [← hl] at h
        rw [hd]
        simp [ofOthers, hs] at h
        simpa [ofOthers] using h.2

theorem lost_put (j : Nat) (m : Net) (xs : List (Option Nat × CanFrame)) : m.lost j ≤ (xs.foldl Net.deliver m).lost j := by
  obtain ⟨-, -, -, got, -, g2, g3, -⟩ := deliver_all xs m j
  have := g2.length_le
  omega

theorem lost_stepWith (n n' : Net) (o : BusOp) (h : (n.stepWith P depth o).Returns n') (j : Nat) : n.lost j ≤ n'.lost j := by
  cases o with
  | call i op =>
    obtain ⟨w, -, e⟩ := returns_bind.mp h
    cases World.returns_pure.mp e
    exact lost_put j (n.setNode i w) _
  | receive i =>
    unfold Net.stepWith at h
    dsimp only at h
    split at h
    · cases World.returns_pure.mp h
      exact Nat.le_refl _
    · next f q hq =>
      obtain ⟨w, -, e⟩ := returns_bind.mp h
      cases World.returns_pure.mp e
      exact lost_put j (({ n with queue := fun m => if m = i then q else n.queue m } : Net).setNode i w) _
  | foreign f =>
    cases World.returns_pure.mp h
    exact lost_put j n [(none, f)]

theorem lost_runWith (ops : List BusOp) : ∀ (n n' : Net), (n.runWith P depth ops).Returns n' → ∀ j, n.lost j ≤ n'.lost j := by
  induction ops with
  | nil =>
    intro n n' h j
    cases World.returns_pure.mp h
    exact Nat.le_refl _
  | cons o ops ih =>
    intro n n' h j
    obtain ⟨m, h1, h2⟩ := returns_bind.mp (show (n.stepWith P depth o >>= fun c => c.runWith P depth ops).Returns n' from h)
    exact Nat.le_trans (lost_stepWith n m o h1 j) (ih m n' h2 j)

/-- A step of the bus with buffers, if nothing is lost. -/
theorem ideal_stepWith {S : Nat → Prop} {b : Bus} {n n' : Net} (h : Alike S b n) (o : BusOp) (ho : ∀ i, o = .receive i → S i)
    (hs : (n.stepWith P depth o).Returns n') (hl : ∀ j, S j → n'.lost j = 0) :
    ∃ (os : List BusOp) (b' : Bus), (b.runWith P depth os).Returns b' ∧ Alike S b' n' ∧ outside os = outside [o] := by
  cases o with
  | call i op =>
    obtain ⟨w, hw, e⟩ := returns_bind.mp hs
    cases World.returns_pure.mp e
    refine ⟨[.call i op], b.give i w, busWith_one _ _ _ ?_, alike_give h i w hl, rfl⟩
    rw [← h.nodes] at hw
    exact returns_bind.mpr ⟨w, hw, rfl⟩
  | receive i =>
    unfold Net.stepWith at hs
    dsimp only at hs
    split at hs
    · cases World.returns_pure.mp hs
      exact ⟨[], b, rfl, h, rfl⟩
    · next f q hq =>
      obtain ⟨w, hw, e⟩ := returns_bind.mp hs
      cases World.returns_pure.mp e
      obtain ⟨k, p, s, a1, a2, a3, a4⟩ := skip_ownWith (P := P) (depth := depth) b i f q (by rw [← h.queue i (ho i rfl)]; exact hq)
      have hp : p < b.wire.length := by
        obtain ⟨hp, -⟩ := List.getElem?_eq_some_iff.mp a2
        exact hp
      let c : Bus := { b with pos := fun m => if m = i then p else b.pos m }
      have hc : Alike S (c.advance i) { n with queue := fun m => if m = i then q else n.queue m } := by
        have hpos : ∀ j, (c.advance i).pos j = if j = i then p + 1 else b.pos j := by
          intro j
          show (if j = i then (if i = i then p else b.pos i) + 1 else if j = i then p else b.pos j) = _
          by_cases hj : j = i
          · rw [if_pos hj, if_pos hj, if_pos rfl]
          · rw [if_neg hj, if_neg hj, if_neg hj]
        refine ⟨h.nodes, h.wire, fun j => ?_, fun j hS => ?_⟩
        · rw [hpos]
          show _ ≤ b.wire.length
          split
          · exact hp
          · exact h.pos j
        · rw [hpos]
          show (if j = i then q else n.queue j) = ofOthers j (b.wire.drop (if j = i then p + 1 else b.pos j))
          by_cases hj : j = i
          · rw [if_pos hj, if_pos hj, hj, a4]
          · rw [if_neg hj, if_neg hj, h.queue j hS]
      refine ⟨List.replicate k (.receive i) ++ [.receive i], (c.advance i).give i w, ?_, alike_give hc i w hl,
        by rw [outside_append, outside_receives]; rfl⟩
      rw [busWith_append]
      refine returns_bind.mpr ⟨c, a1, busWith_one _ _ _ ?_⟩
      have e : c.stepWith P depth (.receive i) =
          (do let w ← World.stepN (P i) (World.nested (P i) depth) (b.nodes i) (.handle f); pure ((c.advance i).give i w)) := by
        unfold Bus.stepWith
        dsimp only
        rw [show c.wire[c.pos i]? = some (s, f) by show b.wire[if i = i then p else b.pos i]? = _; rw [if_pos rfl, a2]]
        dsimp only
        rw [if_neg a3]
      rw [e]
      rw [← h.nodes] at hw
      exact returns_bind.mpr ⟨w, hw, rfl⟩
  | foreign f =>
    cases World.returns_pure.mp hs
    exact ⟨[.foreign f], { b with wire := b.wire ++ [(none, f)] }, busWith_one _ _ _ rfl, alike_put h [(none, f)] hl b.nodes h.nodes, rfl⟩

end

/-- C114. A history of a bus with receive buffers and callbacks that call back, in which no receiving node loses a frame, is one of an ideal
bus: with the same calls of the applications and frames of other devices, in the same order, and the same callbacks. -/
theorem C114_ideal (P : Nat → Program) (depth : Nat) (n0 n : Net) (h0 : FreshNet n0) (ops : List BusOp) (h : (n0.runWith P depth ops).Returns n)
    (hl : ∀ i, .receive i ∈ ops → n.lost i = 0) :
    ∃ (os : List BusOp) (b : Bus), ((idealOf n0).runWith P depth os).Returns b ∧ b.nodes = n.nodes ∧ b.wire = n.wire ∧
      (∀ j, n.lost j = 0 → n.queue j = ofOthers j (b.wire.drop (b.pos j))) ∧ outside os = outside ops := by
  have go : ∀ (ops : List BusOp) (b : Bus) (m : Net), (∀ i, .receive i ∈ ops → n.lost i = 0) → Alike (fun j => n.lost j = 0) b m →
      (m.runWith P depth ops).Returns n →
      ∃ (os : List BusOp) (b' : Bus), (b.runWith P depth os).Returns b' ∧ Alike (fun j => n.lost j = 0) b' n ∧ outside os = outside ops := by
    intro ops
    induction ops with
    | nil =>
      intro b m _ hb hm
      cases World.returns_pure.mp hm
      exact ⟨[], b, rfl, hb, rfl⟩
    | cons o ops ih =>
      intro b m ho hb hm
      obtain ⟨m', h1, h2⟩ := returns_bind.mp (show (m.stepWith P depth o >>= fun c => c.runWith P depth ops).Returns n from hm)
      have hl' : ∀ j, n.lost j = 0 → m'.lost j = 0 := fun j hj => by
        have := lost_runWith ops m' n h2 j
        rw [hj] at this
        exact Nat.le_zero.mp this
      obtain ⟨os1, b1, a1, a2, a3⟩ := ideal_stepWith hb o (fun i e => ho i (by rw [e]; exact List.mem_cons_self)) h1 hl'
      obtain ⟨os2, b2, c1, c2, c3⟩ := ih b1 m' (fun i hi => ho i (List.mem_cons_of_mem _ hi)) a2 h2
      refine ⟨os1 ++ os2, b2, by rw [busWith_append]; exact returns_bind.mpr ⟨b1, a1, c1⟩, c2, ?_⟩
      rw [outside_append, a3, c3, ← outside_append]
      rfl
  obtain ⟨os, b, a1, a2, a3⟩ := go ops (idealOf n0) n0 hl
    ⟨rfl, h0.wire.symm, fun _ => Nat.le_refl _, fun j _ => by rw [h0.queue j]; rfl⟩ h
  exact ⟨os, b, a1, a2.nodes, a2.wire, a2.queue, a3⟩

theorem busWire_give (b : Bus) (i : Nat) (w : World) : b.wire.length ≤ (b.give i w).wire.length := by
  show _ ≤ (b.wire ++ _).length
  rw [List.length_append]
  exact Nat.le_add_right ..

theorem busWire_stepWith {P : Nat → Program} {depth : Nat} (b b' : Bus) (o : BusOp) (h : (b.stepWith P depth o).Returns b') :
    b.wire.length ≤ b'.wire.length := by
  cases o with
  | call i op =>
    obtain ⟨w, -, e⟩ := returns_bind.mp h
    cases World.returns_pure.mp e
    exact busWire_give b i w
  | receive i =>
    unfold Bus.stepWith at h
    dsimp only at h
    split at h
    · cases World.returns_pure.mp h
      exact Nat.le_refl _
    · split at h
      · cases World.returns_pure.mp h
        exact Nat.le_refl _
      · obtain ⟨w, -, e⟩ := returns_bind.mp h
        cases World.returns_pure.mp e
        exact busWire_give (b.advance i) i w
  | foreign f =>
    cases World.returns_pure.mp h
    show _ ≤ (b.wire ++ _).length
    rw [List.length_append]
    exact Nat.le_add_right ..

theorem busWire_runWith {P : Nat → Program} {depth : Nat} (ops : List BusOp) : ∀ (b b' : Bus), (b.runWith P depth ops).Returns b' →
    b.wire.length ≤ b'.wire.length := by
  induction ops with
  | nil =>
    intro b b' h
    cases World.returns_pure.mp h
    exact Nat.le_refl _
  | cons o ops ih =>
    intro b b' h
    obtain ⟨m, h1, h2⟩ := returns_bind.mp (show (b.stepWith P depth o >>= fun c => c.runWith P depth ops).Returns b' from h)
    exact Nat.le_trans (busWire_stepWith b m o h1) (ih m b' h2)

theorem give_room {S : Nat → Prop} {b : Bus} {n : Net} (h : Alike S b n) (i : Nat) (w : World) (hl : ∀ j, S j → n.lost j = 0)
    (hr : ∀ j, S j → (b.give i w).wire.length ≤ n.room j) : (∀ j, S j → (n.advance i w).lost j = 0) ∧ (n.advance i w).room = n.room := by
  refine ⟨fun j hj => ?_, (deliver_all _ (n.setNode i w) 0).2.1⟩
  refine put_room (n := n.setNode i w) _ ?_ (hl j hj)
  have := hr j hj
  rw [show (b.give i w).wire = b.wire ++ _ from rfl, List.length_append] at this
  rw [← h.nodes]
  exact Nat.le_trans (Nat.add_le_add_right (alike_queue_le h j hj) _) this

/-- A step of the ideal bus, on a bus with enough room. -/
theorem roomy_stepWith {P : Nat → Program} {depth : Nat} {S : Nat → Prop} {b b' : Bus} {n : Net} (h : Alike S b n) (hl : ∀ j, S j → n.lost j = 0)
    (o : BusOp) (ho : ∀ i, o = .receive i → S i) (hs : (b.stepWith P depth o).Returns b') (hr : ∀ j, S j → b'.wire.length ≤ n.room j) :
    ∃ (os : List BusOp) (n' : Net), (n.runWith P depth os).Returns n' ∧ Alike S b' n' ∧ (∀ j, S j → n'.lost j = 0) ∧ n'.room = n.room ∧
      outside os = outside [o] := by
  cases o with
  | call i op =>
    obtain ⟨w, hw, e⟩ := returns_bind.mp hs
    cases World.returns_pure.mp e
    obtain ⟨g1, g2⟩ := give_room h i w hl hr
    refine ⟨[.call i op], n.advance i w, netWith_one _ _ _ ?_, alike_give h i w g1, g1, g2, rfl⟩
    rw [h.nodes] at hw
    exact returns_bind.mpr ⟨w, hw, rfl⟩
  | receive i =>
    unfold Bus.stepWith at hs
    dsimp only at hs
    split at hs
    · cases World.returns_pure.mp hs
      exact ⟨[], n, rfl, h, hl, rfl, rfl⟩
    · next s f hf =>
      obtain ⟨hp, hf⟩ := List.getElem?_eq_some_iff.mp hf
      have hd : b.wire.drop (b.pos i) = (s, f) :: b.wire.drop (b.pos i + 1) := by rw [List.drop_eq_getElem_cons hp, hf]
      have hpos : ∀ j, (b.advance i).pos j ≤ b.wire.length := by
        intro j
        show (if j = i then b.pos i + 1 else b.pos j) ≤ _
        split
        · exact hp
        · exact h.pos j
      split at hs
      · next hown =>
        cases World.returns_pure.mp hs
        refine ⟨[], n, rfl, ⟨h.nodes, h.wire, hpos, fun j hS => ?_⟩, hl, rfl, rfl⟩
        show _ = ofOthers j (b.wire.drop (if j = i then b.pos i + 1 else b.pos j))
        by_cases hj : j = i
        · rw [if_pos hj, h.queue j hS, hj, hd]
          simp [ofOthers, hown]
        · rw [if_neg hj, h.queue j hS]
      · next hown =>
        obtain ⟨w, hw, e⟩ := returns_bind.mp hs
        cases World.returns_pure.mp e
        have hq : n.queue i = f :: ofOthers i (b.wire.drop (b.pos i + 1)) := by
          rw [h.queue i (ho i rfl), hd]
          simp [ofOthers, hown]
        let m : Net := { n with queue := fun m => if m = i then ofOthers i (b.wire.drop (b.pos i + 1)) else n.queue m }
        have hm : Alike S (b.advance i) m := by
          refine ⟨h.nodes, h.wire, hpos, fun j hS => ?_⟩
          show (if j = i then _ else n.queue j) = ofOthers j (b.wire.drop (if j = i then b.pos i + 1 else b.pos j))
          by_cases hj : j = i
          · rw [if_pos hj, if_pos hj, hj]
          · rw [if_neg hj, if_neg hj, h.queue j hS]
        obtain ⟨g1, g2⟩ := give_room hm i w hl hr
        refine ⟨[.receive i], m.advance i w, netWith_one _ _ _ ?_, alike_give hm i w g1, g1, g2, rfl⟩
        have e : n.stepWith P depth (.receive i) =
            (do let w ← World.stepN (P i) (World.nested (P i) depth) (n.nodes i) (.handle f); pure (m.advance i w)) := by
          unfold Net.stepWith
          dsimp only
          rw [hq]
        rw [e]
        rw [h.nodes] at hw
        exact returns_bind.mpr ⟨w, hw, rfl⟩
  | foreign f =>
    cases World.returns_pure.mp hs
    have hlost : ∀ j, S j → (n.deliver (none, f)).lost j = 0 := by
      intro j hj
      refine put_room [(none, f)] ?_ (hl j hj)
      have := hr j hj
      rw [show (_ : Bus).wire = _ from rfl, List.length_append] at this
      exact Nat.le_trans (Nat.add_le_add_right (alike_queue_le h j hj) _) this
    exact ⟨[.foreign f], n.deliver (none, f), netWith_one _ _ _ rfl, alike_put h [(none, f)] hlost b.nodes h.nodes, hlost, rfl, rfl⟩

/-- C114. Conversely every history of an ideal bus with callbacks that call back is one of a bus with buffers, if the receiving nodes have room
for all frames: with the same calls and frames of other devices, these nodes lose nothing and all programs and the bus are the same. -/
theorem C114_roomy (P : Nat → Program) (depth : Nat) (n0 : Net) (h0 : FreshNet n0) (ops : List BusOp) (b : Bus)
    (h : ((idealOf n0).runWith P depth ops).Returns b) (hr : ∀ i, .receive i ∈ ops → b.wire.length ≤ n0.room i) :
    ∃ (os : List BusOp) (n : Net), (n0.runWith P depth os).Returns n ∧ b.nodes = n.nodes ∧ b.wire = n.wire ∧
      (∀ j, b.wire.length ≤ n0.room j → n.lost j = 0 ∧ n.queue j = ofOthers j (b.wire.drop (b.pos j))) ∧ outside os = outside ops := by
  have go : ∀ (ops : List BusOp) (c : Bus) (m : Net), (∀ i, .receive i ∈ ops → b.wire.length ≤ n0.room i) → Alike (fun j => b.wire.length ≤ n0.room j) c m →
      (∀ j, b.wire.length ≤ n0.room j → m.lost j = 0) → m.room = n0.room → (c.runWith P depth ops).Returns b →
      ∃ (os : List BusOp) (n : Net), (m.runWith P depth os).Returns n ∧ Alike (fun j => b.wire.length ≤ n0.room j) b n ∧
        (∀ j, b.wire.length ≤ n0.room j → n.lost j = 0) ∧ outside os = outside ops := by
    intro ops
    induction ops with
    | nil =>
      intro c m _ hc hl _ hm
      cases World.returns_pure.mp hm
      exact ⟨[], m, rfl, hc, hl, rfl⟩
    | cons o ops ih =>
      intro c m ho hc hl hroom hm
      obtain ⟨c', h1, h2⟩ := returns_bind.mp (show (c.stepWith P depth o >>= fun c => c.runWith P depth ops).Returns b from hm)
      obtain ⟨os1, n1, a1, a2, a3, a4, a5⟩ := roomy_stepWith hc hl o (fun i e => ho i (by rw [e]; exact List.mem_cons_self)) h1
        (fun j hj => by rw [hroom]; exact Nat.le_trans (busWire_runWith ops c' b h2) hj)
      obtain ⟨os2, n2, c1, c2, c3, c4⟩ := ih c' n1 (fun i hi => ho i (List.mem_cons_of_mem _ hi)) a2 a3 (by rw [a4, hroom]) h2
      refine ⟨os1 ++ os2, n2, by rw [netWith_append]; exact returns_bind.mpr ⟨n1, a1, c1⟩, c2, c3, ?_⟩
      rw [outside_append, a5, c4, ← outside_append]
      rfl
  obtain ⟨os, n, a1, a2, a3, a4⟩ := go ops (idealOf n0) n0 hr
    ⟨rfl, h0.wire.symm, fun _ => Nat.le_refl _, fun j _ => by rw [h0.queue j]; rfl⟩ (fun j _ => h0.lost j) rfl h
  exact ⟨os, n, a1, a2.nodes, a2.wire, fun j hj => ⟨a3 j hj, a2.queue j hj⟩, a4⟩

/-! ## Callbacks that call nothing -/

theorem bus_silent_step (P : Nat → Program) (hP : ∀ i, (P i).Silent) (depth : Nat) (b b' : Bus) (o : BusOp) :
    (b.stepWith P depth o).Returns b' ↔ b.step o = .ok b' := by
  have step : ∀ i w op v, (World.stepN (P i) (World.nested (P i) depth) w op).Returns v ↔ w.step op = .ok v := fun i w op v =>
    World.stepN_silent (hP i) w v op
  have done : ∀ c : Bus, (pure c : Run Bus).Returns b' ↔ Except.ok (ε := Fault) c = .ok b' := fun c =>
    World.returns_pure.trans ⟨fun h => by rw [h], fun h => by injection h⟩
  cases o with
  | call i op =>
    simp only [Bus.stepWith, Bus.step]
    rw [returns_bind]
    constructor
    · rintro ⟨w, h1, h2⟩
      rw [(step i _ _ _).mp h1]
      exact congrArg Except.ok (World.returns_pure.mp h2)
    · intro h
      obtain ⟨w, h1, h2⟩ := bind_ok h
      injection h2 with h2
      exact ⟨w, (step i _ _ _).mpr h1, World.returns_pure.mpr h2⟩
  | receive i =>
    simp only [Bus.stepWith, Bus.step]
    cases hq : b.wire[b.pos i]? with
    | none => exact done b
    | some x =>
      obtain ⟨s, f⟩ := x
      dsimp only
      by_cases hs : s = some i
      · rw [if_pos hs, if_pos hs]
        exact done (b.advance i)
      · rw [if_neg hs, if_neg hs, returns_bind]
        -- handling a frame sends none
        have adv : ∀ w, (b.nodes i).step (.handle f) = .ok w → (b.advance i).give i w = (b.advance i).setNode i w := by
          intro w hw
          obtain ⟨new, hl, hn⟩ := step_atMost _ _ _ hw
          have hz : Bus.sent (w.log.drop (b.nodes i).log.length) = [] := by
            rw [hl, List.drop_left]
            exact List.length_eq_zero_iff.mp (Nat.le_zero.mp hn)
          unfold Bus.give
          rw [show ((b.advance i).nodes i) = b.nodes i from rfl, hz]
          show Bus.mk _ (b.wire ++ []) _ = Bus.mk _ b.wire _
          rw [List.append_nil]
          rfl
        constructor
        · rintro ⟨w, h1, h2⟩
          have h1 := (step i _ _ _).mp h1
          have h2 := World.returns_pure.mp h2
          rw [adv w h1] at h2
          rw [h1]
          exact congrArg Except.ok h2
        · intro h
          obtain ⟨w, h1, h2⟩ := bind_ok h
          injection h2 with h2
          exact ⟨w, (step i _ _ _).mpr h1, World.returns_pure.mpr (by rw [adv w h1]; exact h2)⟩
  | foreign f => exact done _

/-- C114. If no callback calls anything this is the ideal bus of C63 and C109. -/
theorem C114_silent (P : Nat → Program) (hP : ∀ i, (P i).Silent) (depth : Nat) (b b' : Bus) (ops : List BusOp) :
    (b.runWith P depth ops).Returns b' ↔ b.run ops = .ok b' := by
  induction ops generalizing b with
  | nil => exact World.returns_pure.trans ⟨fun h => congrArg Except.ok h, fun h => by injection h⟩
  | cons o ops ih =>
    show (b.stepWith P depth o >>= fun c => c.runWith P depth ops).Returns b' ↔ (b.step o >>= fun c => c.run ops) = .ok b'
    rw [returns_bind]
    constructor
    · rintro ⟨m, h1, h2⟩
      rw [(bus_silent_step P hP depth b m o).mp h1]
      exact (ih m).mp h2
    · intro h
      obtain ⟨m, h1, h2⟩ := bind_ok h
      exact ⟨m, (bus_silent_step P hP depth b m o).mpr h1, (ih m).mpr h2⟩

/-! ## Concrete histories -/

/-- As `livelyOutcome`, for the ideal bus. -/
def idealOutcome (P : Nat → Program) (depth : Nat) (b : Bus) (ops : List BusOp) (p : Bus → Bool) : Bool :=
  match (b.runWith P depth ops).run with
  | some (.ok c) => p c
  | _ => false

/-- Two nodes answer each other's velocities; nothing is lost at the nodes that receive, and the ideal bus has the same frames. Node 0 has to
skip its own frame first there. -/
example : FreshNet smallNet ∧ livelyOutcome (fun _ => echo) 1 smallNet (.call 0 (.sendVelocity { uid := 5#32 } 9#16) :: rally 1 3)
      (fun n => n.wire.length = 4 ∧ n.lost 0 = 0 ∧ n.lost 1 = 0 ∧ (n.queue 0).length = 1 ∧ (n.queue 1).length = 0) = true ∧
    idealOutcome (fun _ => echo) 1 (idealOf smallNet) [.call 0 (.sendVelocity { uid := 5#32 } 9#16), .receive 1, .receive 0, .receive 0, .receive 1, .receive 1]
      (fun b => b.wire.length = 4 ∧ b.pos 0 = 2 ∧ b.pos 1 = 3) = true :=
  ⟨⟨rfl, fun _ => rfl, fun _ => rfl⟩, by decide +kernel, by decide +kernel⟩

/-- With room for nine frames every node of this history has room for all of them. -/
example : FreshNet roomyCrew ∧ idealOutcome (fun _ => echo) 1 (idealOf roomyCrew)
      [.call 0 (.sendVelocity { uid := 5#32 } 9#16), .receive 1, .receive 0, .receive 0, .receive 1, .receive 1, .receive 2]
      (fun b => b.wire.length = 5 ∧ b.pos 2 = 1 ∧ (List.range 3).all (fun i => b.wire.length ≤ roomyCrew.room i)) = true :=
  ⟨⟨rfl, fun _ => rfl, fun _ => rfl⟩, by decide +kernel⟩

/-- The transmit callback of a node sends another frame when it is given the first one: both get to the bus with one call. -/
example : (fun (P : Nat → Program) => livelyOutcome P 1 smallNet [.call 0 .sendStop, .receive 1] (fun n => n.wire.length = 2 ∧ n.lost 1 = 0 ∧ (n.queue 1).length = 1) &&
      idealOutcome P 1 (idealOf smallNet) [.call 0 .sendStop, .receive 1] (fun b => b.wire.length = 2 ∧ b.pos 1 = 1))
    (fun i w _ => if i = 0 ∧ w.log.length = 1 then [.sendGo] else []) = true := by decide +kernel

end RR32
