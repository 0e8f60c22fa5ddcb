import Verif.Props.BusyDownload

/-!
# C109: receive buffers from which nothing is lost are an ideal bus
-/

set_option autoImplicit false

namespace RR32

open Spec

namespace Spec

/-- The ideal bus and the one with buffers are at the same point, for the nodes of `S`: what is in a buffer is what the receive loop has still
to take. -/
structure Alike (S : Nat → Prop) (b : Bus) (n : Net) : Prop where
  nodes : b.nodes = n.nodes
  wire : b.wire = n.wire
  pos : ∀ j, b.pos j ≤ b.wire.length
  queue : ∀ j, S j → n.queue j = ofOthers j (b.wire.drop (b.pos j))

/-- What happens other than receives: the calls of the applications and the frames of other devices, in order. -/
def outside (ops : List BusOp) : List BusOp :=
  ops.filter (fun o => match o with
    | .receive _ => false
    | _ => true)

/-- An ideal bus at the start, with the programs of `n`. -/
def idealOf (n : Net) : Bus := { nodes := n.nodes, wire := [], pos := fun _ => 0 }

end Spec

theorem outside_append (a b : List BusOp) : outside (a ++ b) = outside a ++ outside b := List.filter_append ..

theorem outside_receives (k i : Nat) : outside (List.replicate k (.receive i)) = [] := by
  refine List.filter_eq_nil_iff.mpr fun o ho => ?_
  rw [List.eq_of_mem_replicate ho]
  exact Bool.false_ne_true

theorem bus_run_append (b : Bus) (xs ys : List BusOp) : b.run (xs ++ ys) = b.run xs >>= fun c => c.run ys := List.foldlM_append ..

/-- Frames on the bus, if none of them is lost. -/
theorem alike_put {S : Nat → Prop} {b : Bus} {n : Net} (h : Alike S b n) (xs : List (Option Nat × CanFrame)) (hl : ∀ j, S j → (xs.foldl Net.deliver n).lost j = 0)
    (ns : Nat → World) (hns : ns = n.nodes) : Alike S { nodes := ns, wire := b.wire ++ xs, pos := b.pos } (xs.foldl Net.deliver n) := by
  refine ⟨hns.trans (deliver_all xs n 0).1.symm, by rw [(deliver_all xs n 0).2.2.1, h.wire],
    fun j => by rw [List.length_append]; have := h.pos j; exact Nat.le_add_right_of_le this, fun j hj => ?_⟩
  obtain ⟨-, -, -, got, g1, g2, g3, -, -⟩ := deliver_all xs n j
  rw [hl j hj] at g3
  have := g2.length_le
  show _ = ofOthers j ((b.wire ++ xs).drop (b.pos j))
  rw [g1, g2.eq_of_length (by omega), List.drop_append_of_le_length (h.pos j), ofOthers_append, h.queue j hj]

/-- Frames of its own are skipped by a receive loop. -/
theorem skip_own (b : Bus) (i : Nat) (f : CanFrame) (q : List CanFrame) (h : ofOthers i (b.wire.drop (b.pos i)) = f :: q) :
    ∃ (k p : Nat) (s : Option Nat), b.run (List.replicate k (.receive i)) = .ok { b with pos := fun m => if m = i then p else b.pos m } ∧
      b.wire[p]? = some (s, f) ∧ s ≠ some i ∧ ofOthers i (b.wire.drop (p + 1)) = q := by
  obtain ⟨l, hl⟩ : ∃ l, l = b.wire.drop (b.pos i) := ⟨_, rfl⟩
  induction l generalizing b with
  | nil => rw [← hl] at h; cases h
  | cons x l ih =>
    have hx : b.wire[b.pos i]? = some x := by
      have := congrArg List.head? hl
      rw [List.head?_drop] at this
      exact this.symm
    have hd : b.wire.drop (b.pos i + 1) = l := by
      have := congrArg List.tail hl
      rw [List.tail_drop] at this
      exact this.symm
    obtain ⟨s, g⟩ := x
    by_cases hs : s = some i
    · have hstep : b.step (.receive i) = .ok (b.advance i) := by
        unfold Bus.step
        dsimp only
        rw [hx]
        dsimp only
        rw [if_pos hs]
      have hpos : (b.advance i).pos i = b.pos i + 1 := if_pos rfl
      obtain ⟨k, p, s', a1, a2, a3, a4⟩ := ih (b.advance i)
        (by
          rw [hpos]
          show ofOthers i (b.wire.drop (b.pos i + 1)) = _
          rw [hd]
          rw [← hl] at h
          simpa [ofOthers, hs] using h)
        (by rw [hpos]; exact hd.symm)
      refine ⟨k + 1, p, s', ?_, a2, a3, a4⟩
      show (b.step (.receive i) >>= fun c => c.run (List.replicate k (.receive i))) = _
      rw [hstep]
      refine a1.trans (congrArg Except.ok ?_)
      show Bus.mk _ _ _ = Bus.mk _ _ _
      congr 1
      funext m
      by_cases hm : m = i
      · rw [if_pos hm, if_pos hm]
      · rw [if_neg hm, if_neg hm]
        exact if_neg hm
    · refine ⟨0, b.pos i, s, ?_, ?_, hs, ?_⟩
      · refine congrArg Except.ok ?_
        show Bus.mk _ _ _ = Bus.mk _ _ _
        congr 1
        funext m
        split
        · next e => rw [e]
        · rfl
      · rw [← hl] at h
        rw [hx]
        have : g = f := by
          simp [ofOthers, hs] at h
          exact h.1
        rw [this]
      · rw [← hl] at h
        rw [hd]
        simp [ofOthers, hs] at h
        simpa [ofOthers] using h.2

theorem lost_step (n n' : Net) (o : BusOp) (h : n.step o = .ok n') (j : Nat) : n.lost j ≤ n'.lost j := by
  have put : ∀ (m : Net) (xs : List (Option Nat × CanFrame)), m.lost j ≤ (xs.foldl Net.deliver m).lost j := by
    intro m xs
    obtain ⟨-, -, -, got, -, g2, g3, -⟩ := deliver_all xs m j
    have := g2.length_le
    omega
  cases o with
  | call i op =>
    obtain ⟨w, -, e⟩ := bind_ok h
    injection e with e
    subst e
    exact put (n.setNode i w) _
  | receive i =>
    unfold Net.step at h
    dsimp only at h
    split at h
    · injection h with h
      subst h
      exact Nat.le_refl _
    · obtain ⟨w, -, e⟩ := bind_ok h
      injection e with e
      subst e
      exact Nat.le_refl _
  | foreign f =>
    injection h with h
    subst h
    exact put n [(none, f)]

theorem lost_run (ops : List BusOp) : ∀ (n n' : Net), n.run ops = .ok n' → ∀ j, n.lost j ≤ n'.lost j := by
  induction ops with
  | nil =>
    intro n n' h j
    injection h with h
    subst h
    exact Nat.le_refl _
  | cons o ops ih =>
    intro n n' h j
    obtain ⟨m, h1, h2⟩ := bind_ok (show (n.step o >>= fun c => c.run ops) = .ok n' from h)
    exact Nat.le_trans (lost_step n m o h1 j) (ih m n' h2 j)

/-- A step of the bus with buffers, if nothing is lost. -/
theorem ideal_step {S : Nat → Prop} {b : Bus} {n n' : Net} (h : Alike S b n) (o : BusOp) (ho : ∀ i, o = .receive i → S i) (hs : n.step o = .ok n')
    (hl : ∀ j, S j → n'.lost j = 0) :
    ∃ (os : List BusOp) (b' : Bus), b.run os = .ok b' ∧ Alike S b' n' ∧ outside os = outside [o] := by
  cases o with
  | call i op =>
    obtain ⟨w, hw, e⟩ := bind_ok hs
    injection e with e
    subst e
    refine ⟨[.call i op], { b.setNode i w with wire := b.wire ++ (Bus.sent (w.log.drop (b.nodes i).log.length)).map (fun f => (some i, f)) }, ?_, ?_, rfl⟩
    · show (((b.nodes i).step op >>= fun w => _) >>= _) = _
      rw [h.nodes, hw]
      rfl
    · have := alike_put (b := b.setNode i w) (n := n.setNode i w)
        ⟨by show (fun m => if m = i then w else b.nodes m) = _; rw [h.nodes]; rfl, h.wire, h.pos, h.queue⟩ _ hl (b.setNode i w).nodes
        (by show (fun m => if m = i then w else b.nodes m) = _; rw [h.nodes]; rfl)
      rw [h.nodes]
      exact this
  | receive i =>
    unfold Net.step at hs
    dsimp only at hs
    split at hs
    · injection hs with hs
      subst hs
      exact ⟨[], b, rfl, h, rfl⟩
    · next f q hq =>
      obtain ⟨w, hw, e⟩ := bind_ok hs
      injection e with e
      subst e
      obtain ⟨k, p, s, a1, a2, a3, a4⟩ := skip_own b i f q (by rw [← h.queue i (ho i rfl)]; exact hq)
      have hp : p < b.wire.length := by
        obtain ⟨hp, -⟩ := List.getElem?_eq_some_iff.mp a2
        exact hp
      refine ⟨List.replicate k (.receive i) ++ [.receive i], ({ b with pos := fun m => if m = i then p + 1 else b.pos m } : Bus).setNode i w, ?_, ?_,
        by rw [outside_append, outside_receives]; rfl⟩
      · rw [bus_run_append, a1]
        show ((Bus.step _ _) >>= fun c => c.run []) = _
        have : Bus.step { b with pos := fun m => if m = i then p else b.pos m } (.receive i) =
            .ok (({ b with pos := fun m => if m = i then p + 1 else b.pos m } : Bus).setNode i w) := by
          unfold Bus.step
          dsimp only
          rw [if_pos rfl, a2]
          dsimp only
          rw [if_neg a3, h.nodes, hw]
          refine congrArg Except.ok ?_
          show Bus.mk _ _ _ = Bus.mk _ _ _
          congr 1
          funext m
          show (if m = i then (if i = i then p else b.pos i) + 1 else if m = i then p else b.pos m) = if m = i then p + 1 else b.pos m
          by_cases hm : m = i
          · rw [if_pos hm, if_pos hm, if_pos rfl]
          · rw [if_neg hm, if_neg hm, if_neg hm]
        rw [this]
        rfl
      · refine ⟨by show (fun m => if m = i then w else b.nodes m) = _; rw [h.nodes]; rfl, h.wire, fun j => ?_, fun j hS => ?_⟩
        · show (if j = i then p + 1 else b.pos j) ≤ b.wire.length
          split
          · exact hp
          · exact h.pos j
        · show (if j = i then q else n.queue j) = ofOthers j (b.wire.drop (if j = i then p + 1 else b.pos j))
          by_cases hj : j = i
          · rw [if_pos hj, if_pos hj, hj, a4]
          · rw [if_neg hj, if_neg hj, h.queue j hS]
  | foreign f =>
    injection hs with hs
    subst hs
    exact ⟨[.foreign f], { b with wire := b.wire ++ [(none, f)] }, rfl, alike_put h [(none, f)] hl b.nodes h.nodes, rfl⟩

/-- C109. A history of a bus with receive buffers in which no receiving node loses a frame is one of an ideal bus: there is a history of the latter with the
same calls of the applications and the same frames of other devices, in the same order, after which all programs and the bus are as after the
former. What waits in the buffer of a node that has lost nothing is what its receive loop has still to take. -/
theorem C109_ideal (n0 n : Net) (h0 : FreshNet n0) (ops : List BusOp) (h : n0.run ops = .ok n) (hl : ∀ i, .receive i ∈ ops → n.lost i = 0) :
    ∃ (os : List BusOp) (b : Bus), (idealOf n0).run os = .ok b ∧ b.nodes = n.nodes ∧ b.wire = n.wire ∧
      (∀ j, n.lost j = 0 → n.queue j = ofOthers j (b.wire.drop (b.pos j))) ∧ outside os = outside ops := by
  have go : ∀ (ops : List BusOp) (b : Bus) (m : Net), (∀ i, .receive i ∈ ops → n.lost i = 0) → Alike (fun j => n.lost j = 0) b m → m.run ops = .ok n →
      ∃ (os : List BusOp) (b' : Bus), b.run os = .ok b' ∧ Alike (fun j => n.lost j = 0) b' n ∧ outside os = outside ops := by
    intro ops
    induction ops with
    | nil =>
      intro b m _ hb hm
      injection hm with hm
      subst hm
      exact ⟨[], b, rfl, hb, rfl⟩
    | cons o ops ih =>
      intro b m ho hb hm
      obtain ⟨m', h1, h2⟩ := bind_ok (show (m.step o >>= fun c => c.run ops) = .ok n from hm)
      have hl' : ∀ j, n.lost j = 0 → m'.lost j = 0 := fun j hj => by
        have := lost_run ops m' n h2 j
        rw [hj] at this
        exact Nat.le_zero.mp this
      obtain ⟨os1, b1, a1, a2, a3⟩ := ideal_step hb o (fun i e => ho i (by rw [e]; exact List.mem_cons_self)) h1 hl'
      obtain ⟨os2, b2, c1, c2, c3⟩ := ih b1 m' (fun i hi => ho i (List.mem_cons_of_mem _ hi)) a2 h2
      refine ⟨os1 ++ os2, b2, by rw [bus_run_append, a1]; exact c1, c2, ?_⟩
      rw [outside_append, a3, c3, ← outside_append]
      rfl
  obtain ⟨os, b, a1, a2, a3⟩ := go ops (idealOf n0) n0 hl
    ⟨rfl, h0.wire.symm, fun _ => Nat.le_refl _, fun j _ => by rw [h0.queue j]; rfl⟩ h
  exact ⟨os, b, a1, a2.nodes, a2.wire, a2.queue, a3⟩

theorem put_room {n : Net} {j : Nat} (xs : List (Option Nat × CanFrame)) (hq : (n.queue j).length + xs.length ≤ n.room j) (hl : n.lost j = 0) :
    (xs.foldl Net.deliver n).lost j = 0 := by
  obtain ⟨-, -, -, got, -, -, g3, -, g5⟩ := deliver_all xs n j
  have hle : (ofOthers j xs).length ≤ xs.length := by
    rw [ofOthers, List.length_map]
    exact List.length_filter_le ..
  rw [g5 (by omega)] at g3
  omega

theorem busWire_step (b b' : Bus) (o : BusOp) (h : b.step o = .ok b') : b.wire.length ≤ b'.wire.length := by
  cases o with
  | call i op =>
    obtain ⟨w, -, e⟩ := bind_ok h
    injection e with e
    subst e
    show _ ≤ (b.wire ++ _).length
    rw [List.length_append]
    exact Nat.le_add_right ..
  | receive i =>
    unfold Bus.step at h
    dsimp only at h
    split at h
    · injection h with h
      subst h
      exact Nat.le_refl _
    · split at h
      · injection h with h
        subst h
        exact Nat.le_refl _
      · obtain ⟨w, -, e⟩ := bind_ok h
        injection e with e
        subst e
        exact Nat.le_refl _
  | foreign f =>
    injection h with h
    subst h
    show _ ≤ (b.wire ++ _).length
    rw [List.length_append]
    exact Nat.le_add_right ..

theorem busWire_run (ops : List BusOp) : ∀ (b b' : Bus), b.run ops = .ok b' → b.wire.length ≤ b'.wire.length := by
  induction ops with
  | nil =>
    intro b b' h
    injection h with h
    subst h
    exact Nat.le_refl _
  | cons o ops ih =>
    intro b b' h
    obtain ⟨m, h1, h2⟩ := bind_ok (show (b.step o >>= fun c => c.run ops) = .ok b' from h)
    exact Nat.le_trans (busWire_step b m o h1) (ih m b' h2)

theorem alike_queue_le {S : Nat → Prop} {b : Bus} {n : Net} (h : Alike S b n) (j : Nat) (hj : S j) : (n.queue j).length ≤ b.wire.length := by
  rw [h.queue j hj, ofOthers, List.length_map]
  refine Nat.le_trans (List.length_filter_le ..) ?_
  rw [List.length_drop]
  omega

/-- A step of the ideal bus, on a bus with enough room. -/
theorem roomy_step {S : Nat → Prop} {b b' : Bus} {n : Net} (h : Alike S b n) (hl : ∀ j, S j → n.lost j = 0) (o : BusOp) (ho : ∀ i, o = .receive i → S i)
    (hs : b.step o = .ok b') (hr : ∀ j, S j → b'.wire.length ≤ n.room j) :
    ∃ (os : List BusOp) (n' : Net), n.run os = .ok n' ∧ Alike S b' n' ∧ (∀ j, S j → n'.lost j = 0) ∧ n'.room = n.room ∧ outside os = outside [o] := by
  cases o with
  | call i op =>
    obtain ⟨w, hw, e⟩ := bind_ok hs
    injection e with e
    subst e
    have ha : Alike S (b.setNode i w) (n.setNode i w) :=
      ⟨by show (fun m => if m = i then w else b.nodes m) = _; rw [h.nodes]; rfl, h.wire, h.pos, h.queue⟩
    have hlost : ∀ j, S j → (((Bus.sent (w.log.drop (b.nodes i).log.length)).map (fun f => (some i, f))).foldl Net.deliver (n.setNode i w)).lost j = 0 := by
      intro j hj
      refine put_room _ ?_ (hl j hj)
      have := hr j hj
      rw [show (_ : Bus).wire = _ from rfl, List.length_append] at this
      have hq := alike_queue_le h j hj
      exact Nat.le_trans (Nat.add_le_add_right hq _) this
    refine ⟨[.call i op], ((Bus.sent (w.log.drop (b.nodes i).log.length)).map (fun f => (some i, f))).foldl Net.deliver (n.setNode i w), ?_,
      alike_put ha _ hlost _ ha.nodes, hlost, (deliver_all _ _ 0).2.1, rfl⟩
    show (((n.nodes i).step op >>= fun w => _) >>= _) = _
    rw [← h.nodes, hw]
    rfl
  | receive i =>
    unfold Bus.step at hs
    dsimp only at hs
    split at hs
    · injection hs with hs
      subst hs
      exact ⟨[], n, rfl, h, hl, rfl, rfl⟩
    · next s f hf =>
      obtain ⟨hp, hf⟩ := List.getElem?_eq_some_iff.mp hf
      have hd : b.wire.drop (b.pos i) = (s, f) :: b.wire.drop (b.pos i + 1) := by rw [List.drop_eq_getElem_cons hp, hf]
      have hpos : ∀ j, (b.advance i).pos j ≤ b.wire.length := by
        intro j
        show (if j = i then b.pos i + 1 else b.pos j) ≤ _
        split
        · exact hp
        · exact h.pos j
      split at hs
      · next hown =>
        injection hs with hs
        subst hs
        refine ⟨[], n, rfl, ⟨h.nodes, h.wire, hpos, fun j hS => ?_⟩, hl, rfl, rfl⟩
        show _ = ofOthers j (b.wire.drop (if j = i then b.pos i + 1 else b.pos j))
        by_cases hj : j = i
        · rw [if_pos hj, h.queue j hS, hj, hd]
          simp [ofOthers, hown]
        · rw [if_neg hj, h.queue j hS]
      · next hown =>
        obtain ⟨w, hw, e⟩ := bind_ok hs
        injection e with e
        subst e
        have hq : n.queue i = f :: ofOthers i (b.wire.drop (b.pos i + 1)) := by
          rw [h.queue i (ho i rfl), hd]
          simp [ofOthers, hown]
        refine ⟨[.receive i], { n.setNode i w with queue := fun m => if m = i then ofOthers i (b.wire.drop (b.pos i + 1)) else n.queue m }, ?_,
          ⟨by show (fun m => if m = i then w else b.nodes m) = _; rw [h.nodes]; rfl, h.wire, hpos, fun j hS => ?_⟩, hl, rfl, rfl⟩
        · show (n.step (.receive i) >>= fun c => c.run []) = _
          unfold Net.step
          dsimp only
          rw [hq]
          dsimp only
          rw [← h.nodes, hw]
          rfl
        · show (if j = i then _ else n.queue j) = ofOthers j (b.wire.drop (if j = i then b.pos i + 1 else b.pos j))
          by_cases hj : j = i
          · rw [if_pos hj, if_pos hj, hj]
          · rw [if_neg hj, if_neg hj, h.queue j hS]
  | foreign f =>
    injection hs with hs
    subst hs
    have hlost : ∀ j, S j → (n.deliver (none, f)).lost j = 0 := by
      intro j hj
      refine put_room [(none, f)] ?_ (hl j hj)
      have := hr j hj
      rw [show (_ : Bus).wire = _ from rfl, List.length_append] at this
      exact Nat.le_trans (Nat.add_le_add_right (alike_queue_le h j hj) _) this
    exact ⟨[.foreign f], n.deliver (none, f), rfl, alike_put h [(none, f)] hlost b.nodes h.nodes, hlost, rfl, rfl⟩

/-- C109. Conversely every history of an ideal bus is one of a bus with buffers, if the receiving nodes have room for all frames: with the same calls and
frames of other devices, these nodes lose nothing and all programs and the bus are the same. -/
theorem C109_roomy (n0 : Net) (h0 : FreshNet n0) (ops : List BusOp) (b : Bus) (h : (idealOf n0).run ops = .ok b)
    (hr : ∀ i, .receive i ∈ ops → b.wire.length ≤ n0.room i) :
    ∃ (os : List BusOp) (n : Net), n0.run os = .ok n ∧ b.nodes = n.nodes ∧ b.wire = n.wire ∧
      (∀ j, b.wire.length ≤ n0.room j → n.lost j = 0 ∧ n.queue j = ofOthers j (b.wire.drop (b.pos j))) ∧ outside os = outside ops := by
  have go : ∀ (ops : List BusOp) (c : Bus) (m : Net), (∀ i, .receive i ∈ ops → b.wire.length ≤ n0.room i) → Alike (fun j => b.wire.length ≤ n0.room j) c m →
      (∀ j, b.wire.length ≤ n0.room j → m.lost j = 0) → m.room = n0.room → c.run ops = .ok b →
      ∃ (os : List BusOp) (n : Net), m.run os = .ok n ∧ Alike (fun j => b.wire.length ≤ n0.room j) b n ∧
        (∀ j, b.wire.length ≤ n0.room j → n.lost j = 0) ∧ outside os = outside ops := by
    intro ops
    induction ops with
    | nil =>
      intro c m _ hc hl _ hm
      injection hm with hm
      subst hm
      exact ⟨[], m, rfl, hc, hl, rfl⟩
    | cons o ops ih =>
      intro c m ho hc hl hroom hm
      obtain ⟨c', h1, h2⟩ := bind_ok (show (c.step o >>= fun c => c.run ops) = .ok b from hm)
      obtain ⟨os1, n1, a1, a2, a3, a4, a5⟩ := roomy_step hc hl o (fun i e => ho i (by rw [e]; exact List.mem_cons_self)) h1
        (fun j hj => by rw [hroom]; exact Nat.le_trans (busWire_run ops c' b h2) hj)
      obtain ⟨os2, n2, c1, c2, c3, c4⟩ := ih c' n1 (fun i hi => ho i (List.mem_cons_of_mem _ hi)) a2 a3 (by rw [a4, hroom]) h2
      refine ⟨os1 ++ os2, n2, by rw [net_run_append m n1 os1 os2 a1]; exact c1, c2, c3, ?_⟩
      rw [outside_append, a5, c4, ← outside_append]
      rfl
  obtain ⟨os, n, a1, a2, a3, a4⟩ := go ops (idealOf n0) n0 hr
    ⟨rfl, h0.wire.symm, fun _ => Nat.le_refl _, fun j _ => by rw [h0.queue j]; rfl⟩ (fun j _ => h0.lost j) rfl h
  exact ⟨os, n, a1, a2.nodes, a2.wire, fun j hj => ⟨a3 j hj, a2.queue j hj⟩, a4⟩

/-! ## Concrete histories -/

/-- Node 1 of `smallNet` receives in time, node 2 does not receive and loses a frame; so C109 applies. -/
example : netOutcome smallNet
    [.call 0 (.sendVelocity { uid := 5#32 } 200#16), .receive 1, .call 0 .sendStop, .receive 1, .call 1 .sendGo, .receive 0]
    (fun n => n.lost 0 = 0 ∧ n.lost 1 = 0 ∧ n.lost 2 = 1 ∧ n.wire.length = 3 ∧ (eventsIn (n.nodes 1).log).take 1 = [.velocity 2 5#32 200]) = true := by
  decide +kernel

/-- The condition on losses cannot be left out: node 1 gets the first two of sixteen requests, and then a velocity, which on an ideal bus is
the seventeenth frame it has to take. -/
example : netOutcome smallNet [.call 0 (.requestAllFunctions { uid := 5#32 }), .receive 1, .receive 1, .call 0 (.sendVelocity { uid := 5#32 } 9#16), .receive 1]
      (fun n => n.lost 1 = 14 ∧ eventsIn (n.nodes 1).log = [.velocity 2 5#32 9]) = true ∧
    busOutcome (idealOf smallNet) ([.call 0 (.requestAllFunctions { uid := 5#32 }), .call 0 (.sendVelocity { uid := 5#32 } 9#16)] ++ List.replicate 16 (.receive 1))
      (fun b => eventsIn (b.nodes 1).log = [] ∧ b.wire.length = 17) = true := ⟨by decide +kernel, by decide +kernel⟩

end RR32
