import Verif.Proofs.NestedRun

/-!
# Callbacks that call any public function

C74: the model of `Model/Nested.lean` is the one of `Model/World.lean` if no callback calls back, and more stack never changes an outcome.
C75: whatever callbacks call, memory stays intact.
C76: callbacks that are called last run as if they were called afterwards by the main program.
-/

set_option autoImplicit false

namespace RR32

open Spec

namespace World

/-- The program at its start, with a station that has been started. -/
def started (pf : Platform) (kind : Nat → Consumer) (engines : Engines) (s : Station) : World :=
  { World.new pf kind engines with station := s }

/-! ## A program to run -/

/-- A station with a transmit and an engine callback; every consumer belongs to the application. -/
def demoWorld : World :=
  started ⟨32⟩ (fun _ => .app) (fun _ => Locomotive.construct (List.replicate 8 0#8))
    { callbacks := { tx := some 1, engine := some 2, system := some 3 }, senderHash := 0x0301#16 }

/-- A packet of a stream, answered to `demoWorld`. -/
def packet (dlc : Byte) (l : List Byte) : CanFrame :=
  { id := ⟨0x420301#32⟩, data := { ({} : Data).withBytes (l ++ List.replicate (9 - l.length) 0#8) with dlc := dlc } }

/-- A request for a list, the first packet of the answer (16 bytes) and its two data packets with four entries. The checksum given is
not that of the text. -/
def demoOps : List Op :=
  [.parserStart 0 (some 7), .requestEngineList 0#8 (some 0), .handle (packet 6#8 [0#8, 0#8, 0#8, 16#8, 0#8, 0#8]),
    .handle (packet 8#8 (str ".a=\n.b=\n")), .handle (packet 8#8 (str ".c=\n.d=\n"))]

/-- What is told, in short: who is told; an entry (its key and value), complete or aborted. -/
inductive Message where
  | entry (consumer : Nat) (key value : List Byte)
  | complete (consumer : Nat)
  | aborted (consumer : Nat)
  deriving DecidableEq

/-- What a consumer is told. -/
def message : LogEntry → Option Message
  | .consumer ⟨c, .consume _ k v⟩ => some (.entry c (content k) (content v))
  | .consumer ⟨c, .complete⟩ => some (.complete c)
  | .consumer ⟨c, .aborted⟩ => some (.aborted c)
  | _ => none

/-- What is told in a run, and the state of parser 0 and the registered parser at its end. -/
structure Outline where
  told : List Message
  state : StreamState
  registered : Option Nat
  deriving DecidableEq

/-- The outline of a run that returns. -/
def outline (r : Run World) : Option Outline :=
  match r.run with
  | some (.ok w) => some ⟨w.log.filterMap message, (w.parsers 0).state, w.station.callbacks.configData⟩
  | _ => none

/-! ## C74 -/

theorem runN_step_returns {P : Program} (hP : P.Silent) (depth : Nat) (w v : World) (ops : List Op) :
    (runN P depth w ops).Returns v ↔ w.run ops = .ok v := by
  unfold runN run
  exact returns_foldlM _ _ (fun b a c => stepN_silent hP b c a) ops w v

theorem react_ends {P : Program} {k : World → Op → Run World} (hP : P.Silent) (w : World) (e : LogEntry) : (react P k w e).Ends := by
  rw [react_silent hP]
  exact ends_pure _

/-- C74. If no callback calls back, a history of calls runs as in the model without nested calls: it returns the same, it faults if that
does, and no stack is needed. -/
theorem C74_silent (P : Program) (hP : P.Silent) (depth : Nat) (w : World) (ops : List Op) :
    (∀ v, (runN P depth w ops).Returns v ↔ w.run ops = .ok v) ∧
    ((∃ e, (runN P depth w ops).run = some (.error e)) ↔ ∃ e, w.run ops = .error e) ∧
    (runN P depth w ops).run ≠ none := by
  have hr := fun v => runN_step_returns hP depth w v ops
  have he : (runN P depth w ops).Ends := ends_foldlM _ _ _ (fun op _ u => ends_stepN (react_ends hP) u op)
  refine ⟨hr, ?_, he⟩
  unfold Run.Returns at hr
  unfold Run.Ends at he
  cases h1 : (runN P depth w ops).run with
  | none => exact absurd h1 he
  | some r =>
    rw [h1] at hr
    cases h2 : w.run ops with
    | ok v =>
      have := (hr v).mpr h2
      cases this
      exact ⟨fun ⟨_, h⟩ => (by cases h), fun ⟨_, h⟩ => (by cases h)⟩
    | error e =>
      cases r with
      | ok v => have := (hr v).mp rfl; rw [h2] at this; cases this
      | error e' => exact ⟨fun _ => ⟨e, rfl⟩, fun _ => ⟨e', rfl⟩⟩

theorem below_nested (P : Program) (depth : Nat) (w : World) (op : Op) : (nested P depth w op).Below (nested P (depth + 1) w op) := by
  induction depth generalizing w op with
  | zero => exact Or.inl rfl
  | succ depth ih => exact below_stepN ih w op

theorem below_trans {α : Type} {x y z : Run α} (h1 : x.Below y) (h2 : y.Below z) : x.Below z := by
  rcases h1 with h | h
  · exact Or.inl h
  · rcases h2 with h' | h'
    · exact Or.inl (h.trans h')
    · exact Or.inr (h.trans h')

/-- C74. With more stack a history that ended ends in the same way. -/
theorem C74_stack (P : Program) (d d' : Nat) (hd : d ≤ d') (w : World) (ops : List Op) (r : Except Fault World)
    (h : (runN P d w ops).run = some r) : (runN P d' w ops).run = some r := by
  have hb : (runN P d w ops).Below (runN P d' w ops) := by
    refine below_foldlM _ _ (fun u op => below_stepN (fun w op => ?_) u op) ops w
    induction hd with
    | refl => exact below_refl _
    | step _ ih => exact below_trans ih (below_nested P _ w op)
  rcases hb with hb | hb
  · rw [hb] at h; cases h
  · rw [← hb]; exact h

/-- The demonstration without callbacks that call back: four entries and, since the checksum is wrong, an abort. -/
example : outline (runN (fun _ _ => []) 0 demoWorld demoOps) =
    some ⟨[.entry 7 (str "a") [], .entry 7 (str "b") [], .entry 7 (str "c") [], .entry 7 (str "d") [], .aborted 7], .IDLE, some 0⟩ := by
  decide +kernel

/-- A callback that calls back without end exhausts any stack: here a transmit callback that sends. -/
example : (runN (fun _ e => match e with | .call (.tx ..) => [.sendStop] | _ => []) 20 demoWorld [.sendStop]).run.isNone = true := by
  decide +kernel

/-! ## C75 -/

theorem good_started (S : Nat → Prop) (strict : Prop) (pf : Platform) (kind : Nat → Consumer) (engines : Engines) (s : Station)
    (hS : ∀ c, S c → (kind c).Initialised) (he : ∀ e, 8 ≤ (engines e).protocol.length) (ha : strict → ∀ c, S c → kind c = .app)
    (ht : strict → s.callbacks.tx.isSome = true ∧ s.callbacks.engine.isSome = true) (hn : strict → ∀ e, Named (engines e).info) :
    Good S (fun _ => False) strict (started pf kind engines s) where
  texts _ := ⟨.start, none, [], Reader.fits_start, Nat.zero_le _, rfl, fun c h => by cases h⟩
  attached _ _ h := by cases h
  waiting _ h := by rcases h with h | h <;> cases h
  crcs _ h := h.elim
  init := hS
  shaped := he
  app := ha
  tx hs := (ht hs).1
  engine hs := (ht hs).2
  names := hn

/-- C75. The application attaches consumers that have been set up, its engine objects have the arrays they are declared with, and its
callbacks call whatever they like, as often and as deeply nested as they like. Then no call, nested or not, ever writes behind an array,
reads a field that has not been set, shifts too far or loops for ever. What is left is reading a string that is not terminated and
callbacks that are null. -/
theorem C75_memory (S : Nat → Prop) (pf : Platform) (kind : Nat → Consumer) (engines : Engines) (s : Station)
    (hS : ∀ c, S c → (kind c).Initialised) (he : ∀ e, 8 ≤ (engines e).protocol.length)
    (P : Program) (hP : ∀ w e, ∀ op ∈ P w e, Permitted S False op) (depth : Nat) (ops : List Op) (hops : ∀ op ∈ ops, Permitted S False op)
    (e : Fault) (h : (runN P depth (started pf kind engines s) ops).run = some (.error e)) : e = .nullDeref ∨ e = .oobRead := by
  have := runN_good (C := fun _ => False) hP depth _ ops hops
    (good_started S False pf kind engines s hS he (fun h => h.elim) (fun h => h.elim) (fun h => h.elim))
  unfold Run.Sat at this
  rw [h] at this
  exact this.2

/-- C75. If the consumers are the application's own, the station has the callbacks that it does not check for null, names are terminated
and frames have at most 9 bytes, then nothing at all goes wrong: every history returns or exhausts the stack. -/
theorem C75_no_fault (S : Nat → Prop) (pf : Platform) (kind : Nat → Consumer) (engines : Engines) (s : Station)
    (hS : ∀ c, S c → kind c = .app) (he : ∀ e, 8 ≤ (engines e).protocol.length ∧ Named (engines e).info)
    (hs : s.callbacks.tx.isSome = true ∧ s.callbacks.engine.isSome = true)
    (P : Program) (hP : ∀ w e, ∀ op ∈ P w e, Permitted S True op) (depth : Nat) (ops : List Op) (hops : ∀ op ∈ ops, Permitted S True op) :
    (runN P depth (started pf kind engines s) ops).run = none ∨
      ∃ v, (runN P depth (started pf kind engines s) ops).Returns v := by
  have := runN_good (C := fun _ => False) hP depth _ ops hops
    (good_started S True pf kind engines s (fun c hc => by rw [hS c hc]; trivial) (fun e => (he e).1) (fun _ => hS) (fun _ => hs) (fun _ e => (he e).2))
  unfold Run.Sat at this
  unfold Run.Returns
  cases h : (runN P depth (started pf kind engines s) ops).run with
  | none => exact Or.inl rfl
  | some r =>
    rw [h] at this
    cases r with
    | error e => exact absurd trivial this.1
    | ok v => exact Or.inr ⟨v, rfl⟩

/-- The hypotheses hold for a program whose consumers do the worst: they abort, request again and give further packets to the station
while they are given an entry. -/
example : outline (runN (fun w e => match e with
      | .consumer ⟨_, .consume ..⟩ => if w.log.length < 6 then [.handle (packet 8#8 (str ".c=\n.d=\n")), .requestEngineList 2#8 (some 0), .parserStart 0 (some 8), .abort] else []
      | _ => []) 9 demoWorld demoOps) ≠ none ∧
    (∀ w e, ∀ op ∈ (fun (w : World) (e : LogEntry) => match e with
      | .consumer ⟨_, .consume ..⟩ => if w.log.length < 6 then [Op.handle (packet 8#8 (str ".c=\n.d=\n")), .requestEngineList 2#8 (some 0), .parserStart 0 (some 8), .abort] else []
      | _ => []) w e, Permitted (fun _ => True) True op) := by
  refine ⟨by decide +kernel, ?_⟩
  intro w e op hop
  dsimp only at hop
  split at hop
  · split at hop
    · simp only [List.mem_cons, List.not_mem_nil, or_false] at hop
      rcases hop with rfl | rfl | rfl | rfl
      · exact fun _ => by decide
      · trivial
      · trivial
      · trivial
    · cases hop
  · cases hop

/-! ## C76 -/

/-- The packet does not break off the stream of the parser: its length is that of a first packet or of a data packet, whichever is awaited. -/
def Awaited (p : StreamParser) (d : Data) : Prop :=
  (p.state = .WAITING_FIRST_PACKET → d.dlc = 6#8 ∨ d.dlc = 7#8) ∧ (p.state = .WAITING_DATA_PACKET → d.dlc = 8#8)

section
variable {P : Program} {k : World → Op → Run World} (hP : P.Reserved)
include hP

theorem parserAddN_later (w v : World) (n : Nat) (d : Data) (hd : Awaited (w.parsers n) d) :
    (parserAddN P k w n d).Returns v ↔ ∃ u, w.parserAdd n d = .ok u ∧ Later P k w u v := by
  have hr : resets (w.parsers n) d = false := by
    unfold resets
    cases hs : (w.parsers n).state with
    | IDLE => rfl
    | STREAM_DONE => rfl
    | WAITING_FIRST_PACKET => rcases hd.1 hs with h | h <;> rw [h] <;> rfl
    | WAITING_DATA_PACKET => rw [hd.2 hs]; rfl
  unfold parserAddN
  rw [hr, if_neg (by decide)]
  by_cases hs : (w.parsers n).state = .WAITING_DATA_PACKET
  · rw [if_pos hs]
    exact parserDataN_reserved hP w v n d hs (hd.2 hs)
  · rw [if_neg hs]
    have hone : ∀ x, (w.parsers n).addMessage d = .ok x → x.2.length ≤ 1 := by
      intro x hx
      unfold StreamParser.addMessage at hx
      cases hst : (w.parsers n).state with
      | IDLE => rw [hst] at hx; cases hx; exact Nat.zero_le _
      | STREAM_DONE => rw [hst] at hx; cases hx; exact Nat.zero_le _
      | WAITING_DATA_PACKET => exact absurd hst hs
      | WAITING_FIRST_PACKET =>
        rw [hst] at hx
        simp only [StreamParser.addFirst, if_pos (hd.1 hst)] at hx
        obtain ⟨c, -, hx⟩ := bind_ok hx
        split at hx
        · cases hx; exact Nat.zero_le _
        · cases hx; exact notify_one _ _
    unfold parserAdd
    rw [returns_bind]
    constructor
    · rintro ⟨x, h1, h2⟩
      rw [returns_lift] at h1
      obtain ⟨u, h3, h4⟩ := (tellConsumers_last _ v x.2 (hone x h1)).mp h2
      exact ⟨u, by rw [h1]; exact h3, h4⟩
    · rintro ⟨u, h1, h2⟩
      obtain ⟨x, h3, h4⟩ := bind_ok h1
      exact ⟨x, returns_lift.mpr h3, (tellConsumers_last _ v x.2 (hone x h3)).mpr ⟨u, h4, h2⟩⟩

/-- C76. Callbacks may call back, except consumers that are given an entry. A received frame, unless it breaks off a stream, is then
handled as if no callback called back, and what the callbacks call runs after that. -/
theorem C76_received (w v : World) (f : CanFrame)
    (hf : commandOf f = 0x21 → ∀ n, w.station.callbacks.configData = some n → Awaited (w.parsers n) f.data) :
    (stepN P k w (.handle f)).Returns v ↔ ∃ u, w.step (.handle f) = .ok u ∧ Later P k w u v := by
  show (runCallsN P k w (w.station.HandlePacket w.processing f)).Returns v ↔
    ∃ u, w.stationCalls (w.station.HandlePacket w.processing f) = .ok u ∧ Later P k w u v
  unfold runCallsN stationCalls
  rw [returns_bind]
  cases hh : w.station.HandlePacket w.processing f with
  | error e =>
    constructor
    · rintro ⟨_, h, -⟩; cases h
    · rintro ⟨_, h, -⟩; cases h
  | ok calls =>
    have hone := C11_at_most_one _ _ _ _ hh
    have htx := C14_no_tx _ _ _ _ hh
    have e1 : (∃ a, (Run.lift (Except.ok calls)).Returns a ∧ (a.foldlM (runCallN P k) w).Returns v) ↔ (calls.foldlM (runCallN P k) w).Returns v := by
      constructor
      · rintro ⟨a, h, h'⟩; cases h; exact h'
      · intro h; exact ⟨_, rfl, h⟩
    rw [e1]
    show _ ↔ ∃ u, calls.foldlM runCall w = .ok u ∧ _
    have same : Later P k w w v ↔ w = v := by
      unfold Later
      rw [List.drop_length]
      exact returns_pure
    match calls, hone, htx, hh with
    | [], _, _, _ =>
      constructor
      · intro h; exact ⟨w, rfl, same.mpr (returns_pure.mp h)⟩
      · rintro ⟨u, h1, h2⟩; cases h1; exact returns_pure.mpr (same.mp h2)
    | [c], _, htx, hh =>
      have e2 : [c].foldlM (runCallN P k) w = runCallN P k w c := by
        rw [List.foldlM_cons]
        exact bind_pure _
      have e3 : [c].foldlM runCall w = w.runCall c := by
        rw [List.foldlM_cons]
        exact bind_pure (m := Except Fault) _
      rw [e2, e3]
      obtain ⟨h1, h2, h3⟩ := htx c (List.mem_singleton.mpr rfl)
      have told : ∀ c : Call, (tell P k w (.call c)).Returns v ↔ ∃ u, (.ok (w.logAll [.call c]) : Res World) = .ok u ∧ Later P k w u v := by
        intro c
        have e4 : Later P k w (w.logAll [.call c]) v ↔ (tell P k w (.call c)).Returns v := by
          unfold Later tell
          show Run.Returns ((((w.log ++ [LogEntry.call c]).drop w.log.length).filter w.reachesApp).foldlM (react P k) (w.logAll [.call c])) v ↔ _
          rw [List.drop_left' rfl, List.filter_cons_of_pos rfl, List.filter_nil, List.foldlM_cons]
          show (_ >>= fun x => pure x : Run World).Returns v ↔ _
          rw [bind_pure]
        rw [← e4]
        constructor
        · intro h; exact ⟨_, rfl, h⟩
        · rintro ⟨u, h, h'⟩; cases h; exact h'
      cases c with
      | tx cb f => exact absurd rfl (h1 cb f)
      | cfgStart cb => exact absurd rfl (h2 cb)
      | cfgReset cb => exact absurd rfl (h3 cb)
      | cfgAdd n d =>
        refine parserAddN_later hP w v n d ?_
        rw [HandlePacket_eq] at hh
        split at hh
        · cases hh
        · split at hh
          · cases hh
          · injection hh with hh
            have key : commandOf f = 0x21 ∧ w.station.callbacks.configData = some n ∧ f.data = d := by
              have ht : ∀ (cb : Option Nat) (g : Nat → Call), toward cb g = [.cfgAdd n d] → ∃ m, cb = some m ∧ g m = .cfgAdd n d := by
                intro cb g h
                cases cb with
                | none => cases h
                | some m => exact ⟨m, rfl, by injection h⟩
              unfold reaction at hh
              simp only at hh
              split at hh <;> (try (repeat' split at hh)) <;> first
                | (cases hh)
                | (obtain ⟨m, h4, h5⟩ := ht _ _ hh; cases h5; done)
                | (obtain ⟨m, h4, h5⟩ := ht _ _ hh
                   injection h5 with h5 h6
                   subst h5
                   exact ⟨by assumption, h4, h6⟩)
            obtain ⟨k1, k2, rfl⟩ := key
            exact hf k1 n k2
      | setSystemState _ _ _ => exact told _
      | onAccessoryPacket _ _ _ => exact told _
      | setAllVelocity _ _ => exact told _
      | setLocoVelocity _ _ _ => exact told _
      | setLocoDirection _ _ _ => exact told _
      | changeLocoDirection _ _ => exact told _
      | setLocoFunction _ _ _ _ => exact told _

end

/-- A program that requests the list again when it is told that a stream was aborted. -/
def retrying : Program := fun _ e =>
  match e with
  | .consumer ⟨c, .aborted⟩ => [.requestEngineList 0#8 (some 0), .parserStart 0 (some c)]
  | _ => []

/-- The hypotheses of C76 hold for it at the last packet of the demonstration. -/
example : retrying.Reserved ∧
    (∀ v, (runN retrying 5 demoWorld (demoOps.take 4)).Returns v → Awaited (v.parsers 0) (packet 8#8 (str ".c=\n.d=\n")).data) ∧
    outline (runN retrying 5 demoWorld (demoOps.take 4)) =
      some ⟨[.entry 7 (str "a") [], .entry 7 (str "b") []], .WAITING_DATA_PACKET, some 0⟩ ∧
    outline (runN retrying 5 demoWorld demoOps) =
      some ⟨[.entry 7 (str "a") [], .entry 7 (str "b") [], .entry 7 (str "c") [], .entry 7 (str "d") [], .aborted 7],
        .WAITING_FIRST_PACKET, some 0⟩ := by
  refine ⟨fun _ _ _ _ _ => rfl, ?_, by decide +kernel, by decide +kernel⟩
  intro v hv
  have ho : outline (runN retrying 5 demoWorld (demoOps.take 4)) =
      some ⟨[.entry 7 (str "a") [], .entry 7 (str "b") []], .WAITING_DATA_PACKET, some 0⟩ := by decide +kernel
  unfold outline at ho
  unfold Run.Returns at hv
  rw [hv] at ho
  injection ho with ho
  have hs : (v.parsers 0).state = .WAITING_DATA_PACKET := congrArg Outline.state ho
  exact ⟨fun h => (by rw [hs] at h; cases h), fun _ => rfl⟩

end World

end RR32
