import Verif.Props.Exchange

/-!
# C110: chain reactions on a bus that come to an end
-/

set_option autoImplicit false

namespace RR32

open Spec

namespace Spec

/-- If a node below `N` handles a frame, in a state of the kind `I`, its callbacks send at most `B` frames, all of lower rank, and the state is of the
kind `I` again. -/
def Falling (P : Nat → Program) (depth N B : Nat) (rank : CanFrame → Nat) (I : Nat → World → Prop) : Prop :=
  ∀ i, i < N → ∀ (w v : World) (f : CanFrame), I i w → (World.stepN (P i) (World.nested (P i) depth) w (.handle f)).Returns v →
    I i v ∧ (Bus.sent (v.log.drop w.log.length)).length ≤ B ∧ ∀ g ∈ Bus.sent (v.log.drop w.log.length), rank g < rank f

/-- How many frames a frame of this rank can be handled as, in all: it at one node, and all that this brings about at `N` nodes. -/
def weight (N B : Nat) : Nat → Nat
  | 0 => 1
  | r + 1 => 1 + N * (B * weight N B r)

/-- The sum of `g 0` to `g (N - 1)`. -/
def total (g : Nat → Nat) : Nat → Nat
  | 0 => 0
  | N + 1 => total g N + g N

/-- The weights of all frames that wait at nodes below `N`. -/
def burden (N B : Nat) (rank : CanFrame → Nat) (n : Net) : Nat :=
  total (fun j => ((n.queue j).map (fun f => weight N B (rank f))).sum) N

end Spec

theorem weight_mono (N B : Nat) (hN : 0 < N) (hB : 0 < B) {r s : Nat} (h : r ≤ s) : weight N B r ≤ weight N B s := by
  induction h with
  | refl => exact Nat.le_refl _
  | step _ ih =>
    refine Nat.le_trans ih ?_
    show _ ≤ 1 + N * (B * _)
    rename_i m _
    have h1 : weight N B m ≤ B * weight N B m := Nat.le_mul_of_pos_left _ hB
    have h2 : B * weight N B m ≤ N * (B * weight N B m) := Nat.le_mul_of_pos_left _ hN
    omega

theorem weight_pos (N B r : Nat) : 0 < weight N B r := by
  cases r with
  | zero => exact Nat.one_pos
  | succ r => show 0 < 1 + _; omega

theorem total_le (a b : Nat → Nat) (e : Nat) (N : Nat) (h : ∀ j, j < N → b j ≤ a j + e) : total b N ≤ total a N + N * e := by
  induction N with
  | zero => exact Nat.zero_le _
  | succ N ih =>
    have h1 := ih (fun j hj => h j (by omega))
    have h2 := h N (by omega)
    show total b N + b N ≤ total a N + a N + (N + 1) * e
    rw [Nat.succ_mul]
    omega

theorem total_lt (a b : Nat → Nat) (e w i : Nat) (N : Nat) (hi : i < N) (h : ∀ j, j < N → j ≠ i → b j ≤ a j + e) (hw : b i + w ≤ a i + e) :
    total b N + w ≤ total a N + N * e := by
  induction N with
  | zero => omega
  | succ N ih =>
    show total b N + b N + w ≤ total a N + a N + (N + 1) * e
    rw [Nat.succ_mul]
    by_cases hN : i = N
    · subst hN
      have := total_le a b e i (fun j hj => h j (by omega) (by omega))
      omega
    · have h1 := ih (by omega) (fun j hj => h j (by omega))
      have h2 := h N (by omega) (fun e => hN e.symm)
      omega

theorem total_zero (g : Nat → Nat) (N : Nat) (h : total g N = 0) : ∀ j, j < N → g j = 0 := by
  induction N with
  | zero => intro j hj; omega
  | succ N ih =>
    intro j hj
    have h : total g N + g N = 0 := h
    by_cases e : j = N
    · subst e; omega
    · exact ih (by omega) j (by omega)

theorem weights_le (N B : Nat) (rank : CanFrame → Nat) (W : Nat) (l : List CanFrame) (h : ∀ g ∈ l, weight N B (rank g) ≤ W) :
    (l.map (fun f => weight N B (rank f))).sum ≤ l.length * W := by
  induction l with
  | nil => exact Nat.zero_le _
  | cons g l ih =>
    have h1 := ih (fun x hx => h x (List.mem_cons_of_mem _ hx))
    have h2 := h g List.mem_cons_self
    rw [List.map_cons, List.sum_cons, List.length_cons, Nat.succ_mul]
    omega

/-- A receive loop takes a frame. -/
theorem calm_receive {P : Nat → Program} {depth N B : Nat} {rank : CanFrame → Nat} {I : Nat → World → Prop} (hP : Falling P depth N B rank I) (hB : 0 < B) (n n' : Net) (i : Nat)
    (hn : ∀ j, j < N → I j (n.nodes j)) (hi : i < N) (h : (n.stepWith P depth (.receive i)).Returns n') :
    (∀ j, j < N → I j (n'.nodes j)) ∧ ((n.queue i = [] ∧ n' = n) ∨ (burden N B rank n' + 1 ≤ burden N B rank n ∧ n'.wire.length ≤ n.wire.length + B)) := by
  unfold Net.stepWith at h
  dsimp only at h
  split at h
  · next hq =>
    have e := World.returns_pure.mp h
    subst e
    exact ⟨hn, Or.inl ⟨hq, rfl⟩⟩
  · next f q hq =>
    obtain ⟨w, hw, e⟩ := returns_bind.mp h
    have e := World.returns_pure.mp e
    subst e
    obtain ⟨h0, h1, h2⟩ := hP i hi _ _ _ (hn i hi) hw
    have hd := fun j => deliver_all ((Bus.sent (w.log.drop (n.nodes i).log.length)).map (fun f => (some i, f)))
      (({ n with queue := fun m => if m = i then q else n.queue m } : Net).setNode i w) j
    refine ⟨fun j hj => ?_, Or.inr ⟨?_, ?_⟩⟩
    · unfold Net.advance
      rw [(hd 0).1]
      show I j (if j = i then w else n.nodes j)
      split
      · next e => rw [e]; exact h0
      · exact hn j hj
    · -- what each buffer gains
      have gain : ∀ j, ∃ e, N * e + 1 ≤ weight N B (rank f) ∧ ((((({ n with queue := fun m => if m = i then q else n.queue m } : Net).advance i w).queue j).map
          (fun f => weight N B (rank f))).sum ≤ (((if j = i then q else n.queue j)).map (fun f => weight N B (rank f))).sum + e) ∧
          e = (match rank f with | 0 => 0 | r + 1 => B * weight N B r) := by
        intro j
        obtain ⟨-, -, -, got, g1, g2, -⟩ := hd j
        refine ⟨_, ?_, ?_, rfl⟩
        · cases hr : rank f with
          | zero => exact Nat.le_refl _
          | succ r => show N * (B * weight N B r) + 1 ≤ 1 + N * (B * weight N B r); omega
        · have hgot : ∀ g ∈ got, g ∈ Bus.sent (w.log.drop (n.nodes i).log.length) := by
            intro g hg
            have := g2.subset hg
            simp only [ofOthers, List.mem_map, List.mem_filter] at this
            obtain ⟨x, ⟨⟨y, hy, e⟩, -⟩, e'⟩ := this
            subst e
            subst e'
            exact hy
          have hlen : got.length ≤ B := by
            refine Nat.le_trans g2.length_le (Nat.le_trans ?_ h1)
            rw [ofOthers, List.length_map]
            refine Nat.le_trans (List.length_filter_le ..) ?_
            rw [List.length_map]
          unfold Net.advance
          rw [g1, List.map_append, List.sum_append]
          refine Nat.add_le_add_left ?_ _
          cases hr : rank f with
          | zero =>
            cases got with
            | nil => exact Nat.le_refl _
            | cons g got =>
              have := h2 g (hgot g List.mem_cons_self)
              omega
          | succ r =>
            refine Nat.le_trans (weights_le N B rank (weight N B r) got (fun g hg => ?_)) (Nat.mul_le_mul_right _ hlen)
            have := h2 g (hgot g hg)
            exact weight_mono N B (by omega) hB (by omega)
      obtain ⟨e, he, -, hee⟩ := gain i
      have := total_lt (fun j => ((n.queue j).map (fun f => weight N B (rank f))).sum)
        (fun j => (((({ n with queue := fun m => if m = i then q else n.queue m } : Net).advance i w).queue j).map (fun f => weight N B (rank f))).sum) e
        (weight N B (rank f)) i N hi
        (fun j _ hne => by
          obtain ⟨e', -, g, hee'⟩ := gain j
          rw [if_neg hne] at g
          rw [hee, ← hee']
          exact g)
        (by
          obtain ⟨e', -, g, hee'⟩ := gain i
          rw [if_pos rfl] at g
          rw [hq, List.map_cons, List.sum_cons, hee, ← hee']
          omega)
      unfold burden
      omega
    · unfold Net.advance
      rw [(hd 0).2.2.1, List.length_append, List.length_map]
      exact Nat.add_le_add_left h1 _

/-- Receive loops run. -/
theorem calm_receives {P : Nat → Program} {depth N B : Nat} {rank : CanFrame → Nat} {I : Nat → World → Prop} (hP : Falling P depth N B rank I) (hB : 0 < B) (is : List Nat) :
    ∀ (n n' : Net), (∀ j, j < N → I j (n.nodes j)) → (∀ i ∈ is, i < N) → (n.runWith P depth (is.map .receive)).Returns n' →
      (∀ j, j < N → I j (n'.nodes j)) ∧ (((∀ i ∈ is, n.queue i = []) ∧ n' = n) ∨
        (burden N B rank n' + 1 ≤ burden N B rank n ∧ n'.wire.length + B * burden N B rank n' ≤ n.wire.length + B * burden N B rank n)) := by
  induction is with
  | nil =>
    intro n n' hn _ h
    have e := World.returns_pure.mp h
    subst e
    exact ⟨hn, Or.inl ⟨fun i hi => (by cases hi), rfl⟩⟩
  | cons i is ih =>
    intro n n' hn hi h
    obtain ⟨n1, a1, a2⟩ := returns_bind.mp (show (n.stepWith P depth _ >>= fun c => c.runWith P depth _).Returns n' from h)
    obtain ⟨b0, b⟩ := calm_receive hP hB n n1 i hn (hi i List.mem_cons_self) a1
    obtain ⟨r0, rest⟩ := ih n1 n' b0 (fun x hx => hi x (List.mem_cons_of_mem _ hx)) a2
    refine ⟨r0, ?_⟩
    rcases b with ⟨b1, b2⟩ | ⟨b1, b2⟩
    · subst b2
      rcases rest with ⟨c1, c2⟩ | c
      · exact Or.inl ⟨fun x hx => by rcases List.mem_cons.mp hx with rfl | hx; exacts [b1, c1 x hx], c2⟩
      · exact Or.inr c
    · have hmul : B * burden N B rank n1 + B ≤ B * burden N B rank n := by
        rw [← Nat.mul_succ]
        exact Nat.mul_le_mul_left B b1
      rcases rest with ⟨-, c2⟩ | ⟨c1, c2⟩
      · subst c2
        exact Or.inr ⟨b1, by omega⟩
      · exact Or.inr ⟨by omega, by omega⟩

/-- C110. If the answers of callbacks to a frame fall in rank, then a chain reaction is bounded: however often the receive loops run after the applications have
stopped calling, the bus carries at most `B * burden` further frames, where `burden` depends on what waits in the buffers then. -/
theorem C110_bounded (P : Nat → Program) (depth N B : Nat) (rank : CanFrame → Nat) (I : Nat → World → Prop) (hP : Falling P depth N B rank I) (hB : 0 < B) (n n' : Net) (is : List Nat)
    (hn : ∀ j, j < N → I j (n.nodes j)) (hi : ∀ i ∈ is, i < N) (h : (n.runWith P depth (is.map .receive)).Returns n') : n'.wire.length ≤ n.wire.length + B * burden N B rank n := by
  rcases (calm_receives hP hB is n n' hn hi h).2 with ⟨-, e⟩ | ⟨-, e⟩
  · rw [e]
    exact Nat.le_add_right ..
  · omega

/-- C110. And it comes to an end: after as many rounds as `burden`, in each of which every node receives at least once, the buffers of all nodes are empty. -/
theorem C110_rest (P : Nat → Program) (depth N B : Nat) (rank : CanFrame → Nat) (I : Nat → World → Prop) (hP : Falling P depth N B rank I) (hB : 0 < B) (n n' : Net)
    (hn : ∀ j, j < N → I j (n.nodes j)) (rounds : List (List Nat)) (hi : ∀ r ∈ rounds, ∀ i ∈ r, i < N) (hall : ∀ r ∈ rounds, ∀ i, i < N → i ∈ r) (hr : burden N B rank n ≤ rounds.length)
    (h : (n.runWith P depth (rounds.flatten.map .receive)).Returns n') : ∀ i, i < N → n'.queue i = [] := by
  have empty : ∀ m : Net, burden N B rank m = 0 → ∀ i, i < N → m.queue i = [] := by
    intro m hm i hi
    have := total_zero _ N hm i hi
    cases hq : m.queue i with
    | nil => rfl
    | cons f q =>
      rw [hq, List.map_cons, List.sum_cons] at this
      have := weight_pos N B (rank f)
      omega
  induction rounds generalizing n with
  | nil =>
    have e := World.returns_pure.mp h
    subst e
    exact empty _ (Nat.le_zero.mp hr)
  | cons r rounds ih =>
    rw [List.flatten_cons, List.map_append] at h
    unfold Net.runWith at h
    rw [List.foldlM_append] at h
    obtain ⟨n1, a1, a2⟩ := returns_bind.mp h
    obtain ⟨c0, c⟩ := calm_receives hP hB r n n1 hn (hi r List.mem_cons_self) a1
    rcases c with ⟨c1, c2⟩ | ⟨c1, -⟩
    · subst c2
      have he : ∀ i, i < N → n1.queue i = [] := fun i hi => c1 i (hall r List.mem_cons_self i hi)
      have hz : ∀ (is : List Nat) (m m' : Net), (∀ j, j < N → I j (m.nodes j)) → (∀ i ∈ is, i < N) → (∀ i, i < N → m.queue i = []) → (m.runWith P depth (is.map .receive)).Returns m' → m' = m := by
        intro is m m' hI his hm hrun
        rcases (calm_receives hP hB is m m' hI his hrun).2 with ⟨-, e⟩ | ⟨e, -⟩
        · exact e
        · have hl : burden N B rank m = 0 := by
            unfold burden
            have := total_le (fun _ => 0) (fun j => ((m.queue j).map (fun f => weight N B (rank f))).sum) 0 N
              (fun j hj => by rw [hm j hj]; exact Nat.le_refl _)
            have hz : ∀ N, total (fun _ => 0) N = 0 := fun N => by
              induction N with
              | zero => rfl
              | succ N ih => show total _ N + 0 = 0; rw [ih]
            rw [hz] at this
            omega
          omega
      have e := hz rounds.flatten n1 n' c0 (fun i hx => by
        obtain ⟨r', hr', hx⟩ := List.mem_flatten.mp hx
        exact hi r' (List.mem_cons_of_mem _ hr') i hx) he a2
      rw [e]
      exact he
    · refine ih n1 c0 (fun r' hr' => hi r' (List.mem_cons_of_mem _ hr')) (fun r' hr' => hall r' (List.mem_cons_of_mem _ hr')) ?_ a2
      rw [List.length_cons] at hr
      omega

/-! ## A crew that answers velocities with functions -/

/-- An engine callback that switches on a light if it is told a velocity. -/
def lighting : Program := fun _ e =>
  match e with
  | .call (.setLocoVelocity _ uid _) => [.sendFunction { uid := uid } 0#8 true]
  | _ => []

/-- System commands and velocities come first. -/
def lightingRank (f : CanFrame) : Nat := if commandOf f = 0x00 ∨ commandOf f = 0x04 then 1 else 0

theorem toward_cases {Q : List Call → Prop} (cb : Option Nat) (call : Nat → Call) (h0 : Q []) (h1 : ∀ n, Q [call n]) : Q (toward cb call) := by
  cases cb with
  | none => exact h0
  | some n => exact h1 n

theorem function_command (s : Station) (tx : Nat) (htx : s.callbacks.tx = some tx) (e : LocomotiveData) (fn : Byte) (on : Bool) :
    ∃ f, s.SendEngineFunction e fn on = .ok [.tx tx f] ∧ commandOf f = 0x06 := by
  obtain ⟨hb, -⟩ := (C10_loco false e.uid 0#16 0#32 fn on).2.2
  exact ⟨_, by simp only [Station.SendEngineFunction, Station.SendPacket, Station.txSend, htx], (setHash_built hb s.senderHash).commandOf⟩

/-- One call at most, of a callback of the application. -/
def OneCall (f : CanFrame) (l : List Call) : Prop :=
  l = [] ∨ ∃ c, l = [c] ∧
    ((∃ cb uid v, c = .setLocoVelocity cb uid v ∧ lightingRank f = 1) ∨
      ((∀ w, lighting w (.call c) = []) ∧ (∀ cb g, c ≠ .tx cb g) ∧ ∀ k w, World.runCallN lighting k w c = World.tell lighting k w (.call c)))

/-- What a frame leads to while nothing is requested. -/
theorem reaction_idle (cbs : Callbacks) (hc : cbs.configData = none) (b : Bool) (f : CanFrame) : OneCall f (reaction cbs b f) := by
  unfold reaction
  dsimp only
  split
  · next hf =>
    split
    · split
      · exact toward_cases (Q := OneCall f) _ _ (Or.inl rfl) (fun n => Or.inr ⟨_, rfl, Or.inr ⟨fun _ => rfl, fun _ _ e => (by cases e), fun _ _ => rfl⟩⟩)
      · exact toward_cases (Q := OneCall f) _ _ (Or.inl rfl) (fun n => Or.inr ⟨_, rfl, Or.inr ⟨fun _ => rfl, fun _ _ e => (by cases e), fun _ _ => rfl⟩⟩)
      · exact toward_cases (Q := OneCall f) _ _ (Or.inl rfl) (fun n => Or.inr ⟨_, rfl, Or.inr ⟨fun _ => rfl, fun _ _ e => (by cases e), fun _ _ => rfl⟩⟩)
      · exact toward_cases (Q := OneCall f) _ _ (Or.inl rfl) (fun n => Or.inr ⟨_, rfl, Or.inl ⟨_, _, _, rfl, by rw [lightingRank, if_pos (Or.inl hf)]⟩⟩)
      · exact Or.inl rfl
    · exact Or.inl rfl
  · next hf =>
    split
    · exact toward_cases (Q := OneCall f) _ _ (Or.inl rfl) (fun n => Or.inr ⟨_, rfl, Or.inl ⟨_, _, _, rfl, by rw [lightingRank, if_pos (Or.inr hf)]⟩⟩)
    · exact Or.inl rfl
  · split
    · split
      · exact toward_cases (Q := OneCall f) _ _ (Or.inl rfl) (fun n => Or.inr ⟨_, rfl, Or.inr ⟨fun _ => rfl, fun _ _ e => (by cases e), fun _ _ => rfl⟩⟩)
      · exact toward_cases (Q := OneCall f) _ _ (Or.inl rfl) (fun n => Or.inr ⟨_, rfl, Or.inr ⟨fun _ => rfl, fun _ _ e => (by cases e), fun _ _ => rfl⟩⟩)
      · exact toward_cases (Q := OneCall f) _ _ (Or.inl rfl) (fun n => Or.inr ⟨_, rfl, Or.inr ⟨fun _ => rfl, fun _ _ e => (by cases e), fun _ _ => rfl⟩⟩)
      · exact Or.inl rfl
    · exact Or.inl rfl
  · split
    · exact toward_cases (Q := OneCall f) _ _ (Or.inl rfl) (fun n => Or.inr ⟨_, rfl, Or.inr ⟨fun _ => rfl, fun _ _ e => (by cases e), fun _ _ => rfl⟩⟩)
    · exact Or.inl rfl
  · exact toward_cases (Q := OneCall f) _ _ (Or.inl rfl) (fun n => Or.inr ⟨_, rfl, Or.inr ⟨fun _ => rfl, fun _ _ e => (by cases e), fun _ _ => rfl⟩⟩)
  · split
    · rw [hc]
      exact Or.inl rfl
    · exact Or.inl rfl
  · exact Or.inl rfl

/-- While nothing is requested, such callbacks answer with frames of lower rank. So `C110_rest` holds for them, in contrast to the callbacks of `C108_storm`. -/
theorem C110_lighting (depth N : Nat) :
    Falling (fun _ => lighting) depth N 1 lightingRank (fun _ w => w.station.callbacks.configData = none) := by
  intro i _ w v f hw h
  have h := returns_bind.mp (show (Run.lift (w.station.HandlePacket w.processing f) >>= fun cs => cs.foldlM (World.runCallN lighting (World.nested lighting depth)) w).Returns v
    from h)
  obtain ⟨cs, h1, h2⟩ := h
  have h1 := returns_lift.mp h1
  rw [HandlePacket_eq] at h1
  split at h1
  · cases h1
  split at h1
  · cases h1
  injection h1 with h1
  subst h1
  rcases reaction_idle w.station.callbacks hw w.processing f with e | ⟨c, e, hc⟩
  · rw [e] at h2
    have e := World.returns_pure.mp h2
    subst e
    refine ⟨hw, ?_⟩
    rw [List.drop_length]
    exact ⟨Nat.zero_le _, fun g hg => (by cases hg)⟩
  · rw [e] at h2
    obtain ⟨v1, h3, h4⟩ := returns_bind.mp (show (World.runCallN lighting (World.nested lighting depth) w c >>= fun u => [].foldlM _ u).Returns v from h2)
    have e4 := World.returns_pure.mp h4
    subst e4
    rcases hc with ⟨cb, uid, x, rfl, hrank⟩ | ⟨k1, k2, k3⟩
    · obtain ⟨v2, h5, h6⟩ := returns_bind.mp (show (World.nested lighting depth (w.logAll [.call (.setLocoVelocity cb uid x)]) (.sendFunction { uid := uid } 0#8 true) >>=
        fun u => [].foldlM _ u).Returns v1 from h3)
      have e6 := World.returns_pure.mp h6
      subst e6
      cases depth with
      | zero => cases h5
      | succ depth =>
        cases htx : w.station.callbacks.tx with
        | none =>
          obtain ⟨cs, g1, -⟩ := returns_bind.mp (show (Run.lift (w.station.SendEngineFunction { uid := uid } 0#8 true) >>= fun cs => cs.foldlM _ _).Returns v2 from h5)
          have g1 := returns_lift.mp g1
          simp [Station.SendEngineFunction, Station.SendPacket, Station.txSend, htx] at g1
        | some tx =>
          obtain ⟨g, g1, g2⟩ := function_command w.station tx htx { uid := uid } 0#8 true
          obtain ⟨cs, g3, g4⟩ := returns_bind.mp (show (Run.lift (w.station.SendEngineFunction { uid := uid } 0#8 true) >>= fun cs =>
            cs.foldlM (World.runCallN lighting (World.nested lighting depth)) (w.logAll [.call (.setLocoVelocity cb uid x)])).Returns v2 from h5)
          have g3 := returns_lift.mp g3
          rw [g1] at g3
          injection g3 with g3
          subst g3
          obtain ⟨v3, g5, g6⟩ := returns_bind.mp (show (World.runCallN lighting (World.nested lighting depth) (w.logAll [.call (.setLocoVelocity cb uid x)]) (.tx tx g) >>=
            fun u => [].foldlM _ u).Returns v2 from g4)
          have e := World.returns_pure.mp g6
          subst e
          have e : v3 = (w.logAll [.call (.setLocoVelocity cb uid x)]).logAll [.call (.tx tx g)] := by
            unfold World.runCallN at g5
            dsimp only at g5
            rw [show (w.logAll [.call (.setLocoVelocity cb uid x)]).station.callbacks.tx = some tx from htx] at g5
            exact (World.returns_pure.mp g5).symm
          subst e
          refine ⟨hw, ?_⟩
          have hs : Bus.sent ((((w.logAll [.call (.setLocoVelocity cb uid x)]).logAll [.call (.tx tx g)]).log).drop w.log.length) = [g] := by
            show Bus.sent ((w.log ++ _ ++ _).drop w.log.length) = _
            rw [List.append_assoc, List.drop_left]
            rfl
          rw [hs]
          refine ⟨Nat.le_refl _, fun y hy => ?_⟩
          rw [List.mem_singleton] at hy
          subst hy
          rw [hrank]
          refine Nat.lt_of_le_of_ne (Nat.le_of_lt_succ ?_) ?_
          · unfold lightingRank
            split <;> omega
          · unfold lightingRank
            rw [g2]
            decide
    · rw [k3] at h3
      have e : v1 = w.logAll [.call c] := by
        unfold World.tell World.react at h3
        rw [k1] at h3
        exact (World.returns_pure.mp h3).symm
      subst e
      refine ⟨hw, ?_⟩
      have hs : Bus.sent (((w.logAll [.call c]).log).drop w.log.length) = [] := by
        show Bus.sent ((w.log ++ _).drop w.log.length) = _
        rw [List.drop_left]
        refine List.filterMap_eq_nil_iff.mpr fun x hx => ?_
        have hx : x = .call c := List.mem_singleton.mp hx
        subst hx
        cases c with
        | tx cb g => exact absurd rfl (k2 cb g)
        | _ => rfl
      rw [hs]
      exact ⟨Nat.zero_le _, fun g hg => (by cases hg)⟩

/-- Three such nodes: one velocity and the answers of two nodes, and then nothing more however often the loops run. -/
example : livelyOutcome (fun _ => lighting) 1 smallNet
    (.call 0 (.sendVelocity { uid := 5#32 } 9#16) :: ([1, 2, 0, 2, 1, 0, 1, 2, 0, 1, 2].map BusOp.receive))
    (fun n => n.wire.length = 3 ∧ (n.queue 0).length = 0 ∧ (n.queue 1).length = 0 ∧ (n.queue 2).length = 0) = true := by decide +kernel

/-- The state after the call meets the hypotheses of C110: at most 8 further frames (there are 2), and 8 rounds suffice. -/
example : ∃ n, (smallNet.runWith (fun _ => lighting) 1 [.call 0 (.sendVelocity { uid := 5#32 } 9#16)]).Returns n ∧
    (∀ j, j < 3 → (n.nodes j).station.callbacks.configData = none) ∧ 1 * burden 3 1 lightingRank n = 8 := by
  obtain ⟨n, h1, h2⟩ := livelyOutcome_true (P := fun _ => lighting) (depth := 1) (n := smallNet) (ops := [.call 0 (.sendVelocity { uid := 5#32 } 9#16)])
    (p := fun n => (List.range 3).all fun j => (n.nodes j).station.callbacks.configData.isNone) (by decide +kernel)
  obtain ⟨n', g1, g2⟩ := livelyOutcome_true (P := fun _ => lighting) (depth := 1) (n := smallNet) (ops := [.call 0 (.sendVelocity { uid := 5#32 } 9#16)])
    (p := fun n => decide (1 * burden 3 1 lightingRank n = 8)) (by decide +kernel)
  have e : n = n' := by
    unfold Run.Returns at h1 g1
    rw [h1] at g1
    injection g1 with g1
    injection g1
  subst e
  exact ⟨n, h1, fun j hj => Option.isNone_iff_eq_none.mp (List.all_eq_true.mp h2 j (List.mem_range.mpr hj)), of_decide_eq_true g2⟩

end RR32
