import Verif.Props.Calm

/-!
# C110: when a chain reaction has ended
-/

set_option autoImplicit false

namespace RR32

open Spec

/-- The bus only grows, buffers keep their sizes, and what waits for a node is at most what waited and what was sent since. If there is room for
all of that, it loses nothing. -/
theorem room_run (P : Nat → Program) (depth j : Nat) (ops : List BusOp) : ∀ n n' : Net, (n.runWith P depth ops).Returns n' →
    n'.room = n.room ∧ n.wire.length ≤ n'.wire.length ∧ (n'.queue j).length ≤ (n.queue j).length + (n'.wire.length - n.wire.length) ∧
      ((n.queue j).length + (n'.wire.length - n.wire.length) ≤ n.room j → n'.lost j = n.lost j) := by
  have put : ∀ (m : Net) (xs : List (Option Nat × CanFrame)),
      (xs.foldl Net.deliver m).room = m.room ∧ (xs.foldl Net.deliver m).wire.length = m.wire.length + xs.length ∧
        ((xs.foldl Net.deliver m).queue j).length ≤ (m.queue j).length + xs.length ∧
        ((m.queue j).length + xs.length ≤ m.room j → (xs.foldl Net.deliver m).lost j = m.lost j) := by
    intro m xs
    obtain ⟨-, h2, h3, got, h4, h5, h6, -, h7⟩ := deliver_all xs m j
    have hl : (ofOthers j xs).length ≤ xs.length := by
      unfold ofOthers
      rw [List.length_map]
      exact List.length_filter_le ..
    have hg := h5.length_le
    refine ⟨h2, by rw [h3, List.length_append], by rw [h4, List.length_append]; omega, fun hr => ?_⟩
    have := h7 (by omega)
    rw [this] at h6
    omega
  have step : ∀ (n m : Net) (o : BusOp), (n.stepWith P depth o).Returns m →
      m.room = n.room ∧ n.wire.length ≤ m.wire.length ∧ (m.queue j).length ≤ (n.queue j).length + (m.wire.length - n.wire.length) ∧
        ((n.queue j).length + (m.wire.length - n.wire.length) ≤ n.room j → m.lost j = n.lost j) := by
    intro n m o h
    cases o with
    | call i op =>
      obtain ⟨w, -, h2⟩ := returns_bind.mp h
      have e := World.returns_pure.mp h2
      subst e
      obtain ⟨k1, k2, k3, k4⟩ := put (n.setNode i w) ((Bus.sent (w.log.drop (n.nodes i).log.length)).map (fun f => (some i, f)))
      have hw : (n.setNode i w).wire = n.wire := rfl
      have hq : (n.setNode i w).queue = n.queue := rfl
      rw [hw] at k2
      rw [hq] at k3 k4
      refine ⟨k1, ?_, ?_, fun hr => k4 ?_⟩
      · unfold Net.advance; omega
      · unfold Net.advance; omega
      · unfold Net.advance at hr; exact Nat.le_trans (by omega) hr
    | foreign f =>
      have e := World.returns_pure.mp h
      subst e
      obtain ⟨k1, k2, k3, k4⟩ := put n [(none, f)]
      simp only [List.foldl_cons, List.foldl_nil] at k1 k2 k3 k4
      exact ⟨k1, by omega, by rw [k2]; simpa using k3, fun hr => k4 (by rw [k2] at hr; simpa using hr)⟩
    | receive i =>
      unfold Net.stepWith at h
      dsimp only at h
      cases hq : n.queue i with
      | nil =>
        rw [hq] at h
        have e := World.returns_pure.mp h
        subst e
        exact ⟨rfl, Nat.le_refl _, Nat.le_add_right .., fun _ => rfl⟩
      | cons f q =>
        rw [hq] at h
        obtain ⟨w, -, h2⟩ := returns_bind.mp h
        have e := World.returns_pure.mp h2
        subst e
        have hsub : ((if j = i then q else n.queue j) : List CanFrame).length ≤ (n.queue j).length := by
          split
          · rename_i e; rw [e, hq]; exact Nat.le_succ _
          · exact Nat.le_refl _
        obtain ⟨k1, k2, k3, k4⟩ := put (({ n with queue := fun m => if m = i then q else n.queue m } : Net).setNode i w)
          ((Bus.sent (w.log.drop (n.nodes i).log.length)).map (fun f => (some i, f)))
        have hw : (({ n with queue := fun m => if m = i then q else n.queue m } : Net).setNode i w).wire = n.wire := rfl
        have hq' : (({ n with queue := fun m => if m = i then q else n.queue m } : Net).setNode i w).queue j = if j = i then q else n.queue j := rfl
        rw [hw] at k2
        rw [hq'] at k3 k4
        refine ⟨k1, ?_, ?_, fun hr => k4 ?_⟩
        · unfold Net.advance; dsimp only; omega
        · unfold Net.advance; dsimp only; omega
        · unfold Net.advance at hr; dsimp only at hr; exact Nat.le_trans (by omega) hr
  induction ops with
  | nil =>
    intro n n' h
    have e := World.returns_pure.mp h
    subst e
    exact ⟨rfl, Nat.le_refl _, Nat.le_add_right .., fun _ => rfl⟩
  | cons o ops ih =>
    intro n n' h
    obtain ⟨m, h1, h2⟩ := returns_bind.mp (show (n.stepWith P depth o >>= fun c => c.runWith P depth ops).Returns n' from h)
    obtain ⟨a1, a2, a3, a4⟩ := step n m o h1
    obtain ⟨b1, b2, b3, b4⟩ := ih m n' h2
    refine ⟨b1.trans a1, by omega, by omega, fun hr => ?_⟩
    rw [b4 (by rw [a1]; omega), a4 (by omega)]

/-- C110. A node whose buffer has room for what waits in it and for `B * burden` frames loses nothing of a chain reaction. -/
theorem C110_room (P : Nat → Program) (depth N B : Nat) (rank : CanFrame → Nat) (I : Nat → World → Prop) (hP : Falling P depth N B rank I) (hB : 0 < B) (n n' : Net) (is : List Nat)
    (hn : ∀ j, j < N → I j (n.nodes j)) (hi : ∀ i ∈ is, i < N) (h : (n.runWith P depth (is.map .receive)).Returns n') (j : Nat)
    (hr : (n.queue j).length + B * burden N B rank n ≤ n.room j) : n'.lost j = n.lost j := by
  have := C110_bounded P depth N B rank I hP hB n n' is hn hi h
  exact (room_run P depth j _ n n' h).2.2.2 (by omega)

/-- C110. When it has ended, every node that has lost nothing and has this room has handled every frame that the others ever sent, each once and
in the order of the bus. -/
theorem C110_settled (P : Nat → Program) (depth N B : Nat) (rank : CanFrame → Nat) (I : Nat → World → Prop) (hP : Falling P depth N B rank I) (hB : 0 < B) (n0 n n' : Net)
    (h0 : FreshNet n0) (ops : List BusOp) (h : (n0.runWith P depth ops).Returns n) (hn : ∀ j, j < N → I j (n.nodes j)) (rounds : List (List Nat))
    (hi : ∀ r ∈ rounds, ∀ i ∈ r, i < N) (hall : ∀ r ∈ rounds, ∀ i, i < N → i ∈ r) (hr : burden N B rank n ≤ rounds.length)
    (h' : (n.runWith P depth (rounds.flatten.map .receive)).Returns n') (j : Nat) (hj : j < N) (hl : n.lost j = 0)
    (hroom : (n.queue j).length + B * burden N B rank n ≤ n.room j) :
    ∃ hist : List (Op ⊕ CanFrame), (World.runN (P j) depth (n0.nodes j) (hist.map deed)).Returns (n'.nodes j) ∧
      hist.filterMap Sum.getLeft? = callsOf j ops ∧ handled hist = ofOthers j n'.wire := by
  have hrun : (n0.runWith P depth (ops ++ rounds.flatten.map .receive)).Returns n' := by
    unfold Net.runWith at h h' ⊢
    rw [List.foldlM_append]
    exact returns_bind.mpr ⟨n, h, h'⟩
  obtain ⟨hist, k1, k2, k3, k4, -⟩ := C108_history P depth n0 n' h0 _ hrun j
  have hq : n'.queue j = [] := C110_rest P depth N B rank I hP hB n n' hn rounds hi hall hr h' j hj
  have hl' : n'.lost j = 0 := by
    rw [C110_room P depth N B rank I hP hB n n' rounds.flatten hn (fun i hi' => by
      obtain ⟨r, hr, hir⟩ := List.mem_flatten.mp hi'
      exact hi r hr i hir) h' j hroom]
    exact hl
  rw [hq, List.append_nil] at k3
  rw [hq, hl'] at k4
  refine ⟨hist, k1, ?_, k3.eq_of_length (by simpa using k4)⟩
  rw [k2]
  have : callsOf j (rounds.flatten.map .receive) = [] := by
    unfold callsOf
    refine List.filterMap_eq_nil_iff.mpr fun x hx => ?_
    obtain ⟨i, -, rfl⟩ := List.mem_map.mp hx
    rfl
  show List.filterMap _ (ops ++ _) = _
  rw [List.filterMap_append]
  exact (congrArg (_ ++ ·) this).trans (List.append_nil _)

/-- The three nodes of C110 with room for nine frames. -/
def roomyCrew : Net := { smallNet with room := fun _ => 9 }

/-- After a velocity has been sent they have lost nothing, there is room for the chain reaction, and `C110_lighting` says that it ends. -/
example : ∃ n, (roomyCrew.runWith (fun _ => lighting) 1 [.call 0 (.sendVelocity { uid := 5#32 } 9#16)]).Returns n ∧ FreshNet roomyCrew ∧
    ∀ j, j < 3 → (n.nodes j).station.callbacks.configData = none ∧ n.lost j = 0 ∧ (n.queue j).length + 1 * burden 3 1 lightingRank n ≤ n.room j := by
  obtain ⟨n, h1, h2⟩ := livelyOutcome_true (P := fun _ => lighting) (depth := 1) (n := roomyCrew) (ops := [.call 0 (.sendVelocity { uid := 5#32 } 9#16)])
    (p := fun n => (List.range 3).all fun j => (n.nodes j).station.callbacks.configData.isNone && decide (n.lost j = 0) &&
      decide ((n.queue j).length + 1 * burden 3 1 lightingRank n ≤ n.room j)) (by decide +kernel)
  refine ⟨n, h1, ⟨rfl, fun _ => rfl, fun _ => rfl⟩, fun j hj => ?_⟩
  have := List.all_eq_true.mp h2 j (List.mem_range.mpr hj)
  simp only [Bool.and_eq_true, decide_eq_true_eq] at this
  exact ⟨Option.isNone_iff_eq_none.mp this.1.1, this.1.2, this.2⟩

/-- After eight rounds node 1 has handled the velocity of node 0 and the function command of node 2. -/
example : livelyOutcome (fun _ => lighting) 1 roomyCrew
    (.call 0 (.sendVelocity { uid := 5#32 } 9#16) :: (List.replicate 8 [0, 1, 2]).flatten.map BusOp.receive)
    (fun n => (ofOthers 1 n.wire).length = 2 ∧ n.lost 1 = 0 ∧ (n.queue 1).length = 0) = true := by decide +kernel

end RR32
