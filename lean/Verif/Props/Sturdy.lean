import Verif.Props.Exchange
import Verif.Props.NestedTransmissions

/-!
# C112: nothing goes wrong on a bus
-/

set_option autoImplicit false

namespace RR32

open Spec

namespace Spec

/-- The rules for the calls of an application on a bus: those of C75, and frames that it composes itself are no longer than the array in them. -/
def Mannered (S : Nat → Prop) (strict : Prop) (op : Op) : Prop :=
  Permitted S strict op ∧ (strict → ∀ g, op = .sendPacket g → g.data.dlc.toNat ≤ 9)

/-- The rules for a history: applications respect theirs, and what other devices send fits into a frame. -/
def InOrder (S : Nat → Nat → Prop) (strict : Prop) : BusOp → Prop
  | .call i op => Mannered (S i) strict op
  | .receive _ => True
  | .foreign f => strict → f.data.dlc.toNat ≤ 9

end Spec

/-- Every node is in order, and so are the frames in its receive buffer. -/
def SturdyNet (S : Nat → Nat → Prop) (strict : Prop) (n : Net) : Prop :=
  ∀ j, Good (S j) (fun _ => False) strict (n.nodes j) ∧ (strict → ∀ f ∈ n.queue j, f.data.dlc.toNat ≤ 9)

theorem sat_and {α : Type} {N : Prop} {E : Fault → Prop} {x : Run α} {Q R : α → Prop} (h : x.Sat N E Q) (k : ∀ a, x.Returns a → R a) :
    x.Sat N E (fun a => Q a ∧ R a) := by
  unfold Run.Sat at h ⊢
  cases hr : x.run with
  | none => rw [hr] at h; exact h
  | some r =>
    rw [hr] at h
    cases r with
    | error e => exact h
    | ok a => exact ⟨h, k a hr⟩

/-- What a node sends during a call is no longer than a frame. -/
theorem sent_short {S : Nat → Prop} {strict : Prop} (hs : strict) {P : Program} (hP : ∀ w e, ∀ op ∈ P w e, Mannered S strict op) (depth : Nat)
    (w v : World) (op : Op) (hop : Mannered S strict op) (h : (World.stepN P (World.nested P depth) w op).Returns v) :
    ∀ f ∈ Bus.sent (v.log.drop w.log.length), f.data.dlc.toNat ≤ 9 := by
  have hI := World.faithful_of w (Mannered S strict) (fun f => f.data.dlc.toNat ≤ 9) (fun _ _ => True) (fun _ f => f.data.dlc.toNat ≤ 9)
    (fun _ _ _ => trivial)
    (fun op h cb f ha _ hf => by
      cases op with
      | sendPacket g =>
        have := ha.2 hs g rfl
        rw [← hf.1] at this
        exact this
      | _ => exact Nat.le_trans hf.2.2.2.1 (by decide))
    (fun _ _ _ _ hf => hf)
  obtain ⟨-, new, h1, h2⟩ := keeps_returns
    (World.stepN_faithful hI (World.react_faithful hI hP depth) w op hop ⟨trivial, World.newTx_refl w _⟩) h
  intro f hf
  rw [h1, List.drop_left] at hf
  unfold Bus.sent at hf
  obtain ⟨e, he, hf⟩ := List.mem_filterMap.mp hf
  split at hf
  · cases hf; exact h2 _ _ he
  · cases hf

theorem sturdy_deliver {S : Nat → Nat → Prop} {strict : Prop} (xs : List (Option Nat × CanFrame)) (n : Net) (h : SturdyNet S strict n)
    (hx : strict → ∀ x ∈ xs, x.2.data.dlc.toNat ≤ 9) : SturdyNet S strict (xs.foldl Net.deliver n) := by
  intro j
  obtain ⟨h1, -, -, got, h2, h3, -⟩ := deliver_all xs n j
  rw [h1, h2]
  refine ⟨(h j).1, fun hs f hf => ?_⟩
  rcases List.mem_append.mp hf with hf | hf
  · exact (h j).2 hs f hf
  · have := h3.subset hf
    unfold ofOthers at this
    simp only [List.mem_map, List.mem_filter] at this
    obtain ⟨x, hx', rfl⟩ := this
    exact hx hs x hx'.1

theorem sturdy_advance {S : Nat → Nat → Prop} {strict : Prop} {P : Nat → Program} {depth : Nat}
    (hP : ∀ i w e, ∀ op ∈ P i w e, Mannered (S i) strict op) (n : Net) (h : SturdyNet S strict n) (i : Nat) (op : Op)
    (hop : Mannered (S i) strict op) :
    (do let w ← World.stepN (P i) (World.nested (P i) depth) (n.nodes i) op; pure (n.advance i w) : Run Net).Sat True (Left strict) (SturdyNet S strict) := by
  have hg := World.stepN_good (C := fun _ => False) (S := S i) (strict := strict) (P := P i) (k := World.nested (P i) depth) (N := True)
    (fun C w e h => sat_foldlM _ _ _ _ (fun op hm u hu => World.nested_good (fun w e op hop => (hP i w e op hop).1) depth C u op (hP i w e op hm).1 hu) h)
    (n.nodes i) op hop.1 (h i).1
  refine sat_bind (sat_and hg (R := fun v => strict → ∀ f ∈ Bus.sent (v.log.drop (n.nodes i).log.length), f.data.dlc.toNat ≤ 9)
    (fun v hv hs => sent_short hs (hP i) depth _ v op hop hv)) fun v hv => sat_pure ?_
  unfold Net.advance
  refine sturdy_deliver _ _ ?_ ?_
  · intro j
    refine ⟨?_, (h j).2⟩
    unfold Net.setNode
    dsimp only
    split
    · rename_i e; rw [e]; exact hv.1
    · exact (h j).1
  · intro hs x hx
    obtain ⟨f, hf, rfl⟩ := List.mem_map.mp hx
    exact hv.2 hs f hf

theorem sturdy_step {S : Nat → Nat → Prop} {strict : Prop} {P : Nat → Program} {depth : Nat}
    (hP : ∀ i w e, ∀ op ∈ P i w e, Mannered (S i) strict op) (n : Net) (h : SturdyNet S strict n) (o : BusOp) (ho : InOrder S strict o) :
    (n.stepWith P depth o).Sat True (Left strict) (SturdyNet S strict) := by
  cases o with
  | call i op => exact sturdy_advance hP n h i op ho
  | foreign f => exact sat_pure (sturdy_deliver [(none, f)] n h (fun hs x hx => by rw [List.mem_singleton.mp hx]; exact ho hs))
  | receive i =>
    unfold Net.stepWith
    dsimp only
    cases hq : n.queue i with
    | nil => exact sat_pure h
    | cons f q =>
      dsimp only
      refine sturdy_advance hP { n with queue := fun m => if m = i then q else n.queue m } ?_ i (.handle f) ⟨?_, ?_⟩
      · intro j
        refine ⟨(h j).1, fun hs g hg => ?_⟩
        dsimp only at hg
        split at hg
        · rename_i e
          subst e
          exact (h j).2 hs g (by rw [hq]; exact List.mem_cons_of_mem _ hg)
        · exact (h j).2 hs g hg
      · intro hs
        exact (h i).2 hs f (by rw [hq]; exact List.mem_cons_self ..)
      · intro _ g hg; cases hg

theorem sturdy_run {S : Nat → Nat → Prop} {strict : Prop} {P : Nat → Program} {depth : Nat}
    (hP : ∀ i w e, ∀ op ∈ P i w e, Mannered (S i) strict op) (n : Net) (h : SturdyNet S strict n) (ops : List BusOp)
    (ho : ∀ o ∈ ops, InOrder S strict o) : (n.runWith P depth ops).Sat True (Left strict) (SturdyNet S strict) :=
  sat_foldlM _ _ _ _ (fun o hm n hn => sturdy_step hP n hn o (ho o hm)) h

/-- The programs of the installation have just been started, and nothing waits. -/
structure Spec.Fresh (n : Net) (pf : Nat → Platform) (kind : Nat → Nat → Consumer) (engines : Nat → Engines) (s : Nat → Station) : Prop where
  nodes : ∀ j, n.nodes j = World.started (pf j) (kind j) (engines j) (s j)
  queue : ∀ j, n.queue j = []

/-- C112: on a bus of programs that attach only consumers that have been set up, and whose engines have the arrays they are declared with,
no node ever writes behind an array, reads a field that has not been set, shifts too far or loops for ever, whatever the callbacks call,
whatever other devices send, and in whatever order the receive loops run. -/
theorem C112_memory (S : Nat → Nat → Prop) (n : Net) (pf : Nat → Platform) (kind : Nat → Nat → Consumer) (engines : Nat → Engines) (s : Nat → Station)
    (hn : Spec.Fresh n pf kind engines s) (hS : ∀ j c, S j c → (kind j c).Initialised) (he : ∀ j e, 8 ≤ (engines j e).protocol.length)
    (P : Nat → Program) (hP : ∀ i w e, ∀ op ∈ P i w e, Mannered (S i) False op) (depth : Nat) (ops : List BusOp)
    (ho : ∀ o ∈ ops, InOrder S False o) (e : Fault) (h : (n.runWith P depth ops).run = some (.error e)) : e = .nullDeref ∨ e = .oobRead := by
  have := sturdy_run (depth := depth) hP n (fun j => ⟨by
    rw [hn.nodes j]
    exact World.good_started (S j) False _ _ _ _ (hS j) (he j) (fun h => h.elim) (fun h => h.elim) (fun h => h.elim), fun h => h.elim⟩) ops ho
  unfold Run.Sat at this
  rw [h] at this
  exact this.2

/-- C112: if moreover consumers are the applications' own, the stations have the callbacks that they do not check for null, names are
terminated and all frames fit, then nothing at all goes wrong: every history of the bus returns, or a node runs out of stack. -/
theorem C112_no_fault (S : Nat → Nat → Prop) (n : Net) (pf : Nat → Platform) (kind : Nat → Nat → Consumer) (engines : Nat → Engines) (s : Nat → Station)
    (hn : Spec.Fresh n pf kind engines s) (hS : ∀ j c, S j c → kind j c = .app)
    (he : ∀ j e, 8 ≤ (engines j e).protocol.length ∧ Named (engines j e).info)
    (hs : ∀ j, (s j).callbacks.tx.isSome = true ∧ (s j).callbacks.engine.isSome = true)
    (P : Nat → Program) (hP : ∀ i w e, ∀ op ∈ P i w e, Mannered (S i) True op) (depth : Nat) (ops : List BusOp)
    (ho : ∀ o ∈ ops, InOrder S True o) : (n.runWith P depth ops).run = none ∨ ∃ n', (n.runWith P depth ops).Returns n' := by
  have := sturdy_run (depth := depth) hP n (fun j => ⟨by
    rw [hn.nodes j]
    exact World.good_started (S j) True _ _ _ _ (fun c hc => by rw [hS j c hc]; trivial) (fun e => (he j e).1) (fun _ => hS j) (fun _ => hs j)
      (fun _ e => (he j e).2), fun _ f hf => by rw [hn.queue j] at hf; cases hf⟩) ops ho
  unfold Run.Sat at this
  unfold Run.Returns
  cases h : (n.runWith P depth ops).run with
  | none => exact Or.inl rfl
  | some r =>
    rw [h] at this
    cases r with
    | error e => exact absurd trivial this.1
    | ok v => exact Or.inr ⟨v, rfl⟩

/-- A program whose callbacks call nothing does not run out of stack. -/
theorem silent_ends (P : Nat → Program) (hP : ∀ i, (P i).Silent) (depth : Nat) (n : Net) (ops : List BusOp) :
    (n.runWith P depth ops).Ends := by
  refine ends_foldlM _ _ _ (fun o _ n => ?_)
  have one : ∀ (i : Nat) (w : World) (op : Op) (g : World → Net),
      (do let v ← World.stepN (P i) (World.nested (P i) depth) w op; pure (g v) : Run Net).Ends := fun i w op g =>
    ends_bind (World.ends_stepN (World.react_ends (hP i)) w op) (fun _ _ => ends_pure _)
  cases o with
  | call i op => exact one i _ op _
  | foreign f => exact ends_pure _
  | receive i =>
    unfold Net.stepWith
    dsimp only
    split
    · exact ends_pure _
    · exact one i _ _ _

/-- C112: with callbacks that call nothing every such history of the bus returns. -/
theorem C112_returns (S : Nat → Nat → Prop) (n : Net) (pf : Nat → Platform) (kind : Nat → Nat → Consumer) (engines : Nat → Engines) (s : Nat → Station)
    (hn : Spec.Fresh n pf kind engines s) (hS : ∀ j c, S j c → kind j c = .app)
    (he : ∀ j e, 8 ≤ (engines j e).protocol.length ∧ Named (engines j e).info)
    (hs : ∀ j, (s j).callbacks.tx.isSome = true ∧ (s j).callbacks.engine.isSome = true)
    (ops : List BusOp) (ho : ∀ o ∈ ops, InOrder S True o) : ∃ n', n.run ops = .ok n' := by
  have hP : ∀ i : Nat, Program.Silent ((fun _ _ _ => []) i) := fun _ _ _ => rfl
  rcases C112_no_fault S n pf kind engines s hn hS he hs (fun _ _ _ => []) (fun i w e op hop => by cases hop) 0 ops ho with h | ⟨n', h⟩
  · exact absurd h (silent_ends _ hP 0 n ops)
  · exact ⟨n', (C108_silent _ hP 0 n n' ops).mp h⟩

/-! ## The hypotheses can be met -/

/-- Stations with a transmit and an engine callback, parser 0, consumers of the applications, and room for two frames at each node. -/
def plainNet : Net :=
  { nodes := fun j => World.started ⟨32⟩ (fun _ => .app) (fun _ => Locomotive.construct (List.replicate 9 0xAA#8))
      { senderHash := BitVec.ofNat 16 (0x300 + j), callbacks := { tx := some 5, engine := some 6 } }
    wire := []
    room := fun _ => 2
    queue := fun _ => []
    lost := fun _ => 0 }

/-- Nodes wait for a stream, switch the track on and set a velocity; another device sends a packet that is too long, and a frame with an unknown command. -/
def plainOps : List BusOp :=
  [.call 0 (.parserStart 0 (some 3)), .call 0 (.parserStartStream 0), .call 0 .sendGo, .receive 1, .call 2 (.sendVelocity { uid := 0x4007#32 } 500#16),
   .receive 1, .receive 0, .foreign { id := ⟨0x420301#32⟩, data := { dlc := 9#8 } }, .foreign { id := ⟨0x7E0301#32⟩, data := { dlc := 3#8 } }, .receive 0,
   .receive 0, .receive 7]

example : Spec.Fresh plainNet (fun _ => ⟨32⟩) (fun _ _ => .app) (fun _ _ => Locomotive.construct (List.replicate 9 0xAA#8))
      (fun j => { senderHash := BitVec.ofNat 16 (0x300 + j), callbacks := { tx := some 5, engine := some 6 } }) ∧
    (∀ _ : Nat, 8 ≤ (Locomotive.construct (List.replicate 9 0xAA#8)).protocol.length ∧ Named (Locomotive.construct (List.replicate 9 0xAA#8)).info) ∧
    (∀ i w e, ∀ op ∈ (fun _ => echo : Nat → Program) i w e, Mannered (fun _ => True) True op) ∧
    ∀ o ∈ plainOps, InOrder (fun _ _ => True) True o := by
  refine ⟨⟨fun _ => rfl, fun _ => rfl⟩, fun _ => ⟨by decide, by decide, by decide⟩, ?_, ?_⟩
  · intro i w e op hop
    dsimp only [echo] at hop
    split at hop
    · rw [List.mem_singleton.mp hop]; exact ⟨trivial, fun _ g hg => by cases hg⟩
    · cases hop
  · intro o ho
    simp only [plainOps, List.mem_cons, List.not_mem_nil, or_false] at ho
    rcases ho with rfl | rfl | rfl | rfl | rfl | rfl | rfl | rfl | rfl | rfl | rfl | rfl <;>
      first | trivial | exact ⟨trivial, fun _ g hg => by cases hg⟩ | exact fun _ => by decide

example : livelyOutcome (fun _ => echo) 3 plainNet plainOps (fun n => n.wire.length = 7 ∧ n.lost 0 = 1 ∧ n.lost 2 = 4) = true := by decide +kernel

end RR32
