import Verif.Model.Overwritten
import Verif.Proofs.Settled
import Verif.Props.NestedEntry

/-!
# Frames that are overwritten while they are handled

C95: what the library does with a received frame does not depend on what callbacks do to the variable that holds it.
-/

set_option autoImplicit false

namespace RR32

open Spec

namespace World

/-- The call as it would be made with a copy of the frame. -/
def _root_.RR32.MainOp.copied (w : World) : MainOp → Op
  | .call op => op
  | .handle frame => .handle (frame w.log)
  | .parserAdd n data => .parserAdd n (data w.log)

/-! ## C95 -/

/-- C95: no text waits in a parser while the main program runs, whatever the callbacks call. -/
theorem C95_settled (P : Program) (depth : Nat) (w w' : World) (h : Settled (fun _ => False) w) (ops : List Op) (hr : (runN P depth w ops).Returns w') :
    ∀ n, (w'.parsers n).text.buffer.len = 0 := fun n =>
  (keeps_returns (sat_foldlM _ (Settled (fun _ => False)) ops w (fun op _ u hu => main_settled P depth u op hu) h) hr).empty n id

/-- The parsers of a program that starts. -/
theorem C95_start (pf : Platform) (kind : Nat → Consumer) (engines : Engines) (s : Station) : Settled (fun _ => False) (started pf kind engines s) :=
  ⟨fun _ => textGood_any (s := .start) (cons := none) (b := []) Reader.fits_start (by simp), fun _ _ => rfl⟩

theorem addTextVar_room (P : Program) (k : World → Op → Run World) (w : World) (n : Nat) (mem : List LogEntry → List Byte) (cap : Nat)
    (hm : BufOk { mem := mem w.log, cap := cap, len := 8 }) (ht : TextGood (fun _ => True) (w.text n)) (hl : (w.text n).buffer.len ≤ 23) :
    addTextVar P k w n mem cap 8 = addTextN P k w n { mem := mem w.log, cap := cap, len := 8 } := by
  unfold addTextVar addTextN
  split
  · rfl
  · show addLoopVar P k (299 + 1) w n mem cap 8 0 = addLoopN P k (299 + 1) w n _ 0
    unfold addLoopVar addLoopN
    rw [if_pos (by decide), if_pos (show (0 : Nat) < 8 by decide)]
    split
    · rfl
    · obtain ⟨s, cons, b, hs, hb, ht, -⟩ := ht
      rw [ht] at hl
      have hl : b.length ≤ 23 := hl
      have hvok := (C28_view _ hm 0 8).2.2.1
      have hview := C28_from _ hm 0
      have hpush := ofc.push_back (cap := 31) (c := b) hb (by omega) (BufferManager.subBufferManagerFrom { mem := mem w.log, cap := cap, len := 8 } 0) (Nat.le_trans hvok.len_le hvok.mem_le)
      have hcl : (content (BufferManager.subBufferManagerFrom { mem := mem w.log, cap := cap, len := 8 } 0)).length = 8 := by
        rw [hview, List.length_drop, content, List.length_take]
        have h1 : 8 ≤ cap := hm.len_le
        have h2 : cap ≤ (mem w.log).length := hm.mem_le
        show min 8 (mem w.log).length - 0 = 8
        omega
      rw [hcl, show min (31 - b.length) 8 = 8 by omega] at hpush
      rw [ht]
      generalize content (BufferManager.subBufferManagerFrom { mem := mem w.log, cap := cap, len := 8 } 0) = c at hpush
      generalize ofc 31 (b ++ c.take (31 - b.length)) = buf at hpush
      have hpush : (conc s cons b).buffer.push_back (BufferManager.subBufferManagerFrom { mem := mem w.log, cap := cap, len := 8 } 0) = .ok (buf, 8) := hpush
      simp only [hpush, lift_ok_pure, pure_bind]
      refine congrArg _ (funext fun x => ?_)
      refine congrArg _ (funext fun y => ?_)
      show addLoopVar P k (298 + 1) _ n mem cap 8 8 = addLoopN P k (298 + 1) _ n _ 8
      unfold addLoopVar addLoopN
      rw [if_neg (by decide), if_neg (show ¬(8 : Nat) < 8 by decide)]

/-- C95: a packet that a parser is given may be overwritten by any callback, if the parser's input buffer has room for it: what happens is
what would happen with a copy. -/
theorem C95_packet (P : Program) (k : World → Op → Run World) (w : World) (n : Nat) (data : List LogEntry → Data)
    (ht : TextGood (fun _ => True) (w.parsers n).text) (hl : (w.parsers n).text.buffer.len ≤ 23) :
    parserAddVar P k w n data = parserAddN P k w n (data w.log) := by
  unfold parserAddVar
  split
  · next hres => unfold parserAddN; rw [if_pos hres]
  · next hres =>
    split
    · next hs =>
      have hd : (data w.log).dlc = 8#8 := by simpa [resets, hs] using hres
      unfold parserAddN
      rw [if_neg hres, if_pos hs]
      unfold parserDataVar parserDataN
      dsimp only
      refine congrArg _ (funext fun crc => ?_)
      have hbuf : BufOk { mem := (data w.log).bytes, cap := (data w.log).dlc.toNat, len := 8 } := by
        rw [hd]; exact ⟨(show 8 ≤ 8 by decide), (show 8 ≤ 255 by decide), (show 8 ≤ 9 by decide)⟩
      have key := addTextVar_room P k (w.setParser n { w.parsers n with remaining := (w.parsers n).remaining - (data w.log).dlc.zeroExtend 32, crc := some (((data w.log).bytes.take (data w.log).dlc.toNat).foldl Crc.updateCrc crc) })
        n (fun l => (data l).bytes) (data w.log).dlc.toNat hbuf (by unfold text; rw [setParser_get]; exact ht) (by unfold text; rw [setParser_get]; exact hl)
      exact congrArg (· >>= _) key
    · rfl

/-- C95: the same for a frame given to the station. -/
theorem C95_frame (P : Program) (k : World → Op → Run World) (w : World) (frame : List LogEntry → CanFrame)
    (ht : ∀ n, w.station.callbacks.configData = some n → TextGood (fun _ => True) (w.parsers n).text)
    (hl : ∀ n, w.station.callbacks.configData = some n → (w.parsers n).text.buffer.len ≤ 23) :
    handleVar P k w frame = stepN P k w (.handle (frame w.log)) := by
  have other : ∀ cs : List Call, (∀ c ∈ cs, ∀ n d, c ≠ .cfgAdd n d) → ∀ v, cs.foldlM (runCallVar P k frame) v = cs.foldlM (runCallN P k) v := by
    intro cs
    induction cs with
    | nil => intro _ _; rfl
    | cons c cs ih =>
      intro hc v
      rw [List.foldlM_cons, List.foldlM_cons]
      have : runCallVar P k frame v c = runCallN P k v c := by
        unfold runCallVar
        split
        · exact absurd rfl (hc _ (List.mem_cons_self ..) _ _)
        · rfl
      rw [this]
      exact congrArg _ (funext fun u => ih (fun c h => hc c (List.mem_cons_of_mem _ h)) u)
  show handleVar P k w frame = runCallsN P k w (w.station.HandlePacket w.processing (frame w.log))
  unfold handleVar runCallsN
  by_cases hf : commandOf (frame w.log) = 0x21
  · rw [HandlePacket_eq]
    split
    · rfl
    · split
      · rfl
      · have hre : reaction w.station.callbacks w.processing (frame w.log) =
            if w.processing then toward w.station.callbacks.configData (.cfgAdd · (frame w.log).data) else [] := by
          unfold reaction
          simp only [hf]
        rw [hre, lift_ok_pure, pure_bind, pure_bind]
        split
        · cases hr : w.station.callbacks.configData with
          | none => rfl
          | some n =>
            show (parserAddVar P k w n (fun l => (frame l).data) >>= fun x => pure x) = (parserAddN P k w n (frame w.log).data >>= fun x => pure x)
            rw [C95_packet P k w n (fun l => (frame l).data) (ht n hr) (hl n hr)]
        · rfl
  · cases hc : w.station.HandlePacket w.processing (frame w.log) with
    | error e => rfl
    | ok cs =>
      rw [lift_ok_pure, pure_bind, pure_bind]
      exact other cs (fun c hm n d => (HandlePacket_spares _ _ _ hf cs hc c hm n).2.2 d) w

theorem bind_congr_keeps {α β : Type} {x : Run α} {Q : α → Prop} (hx : x.Keeps Q) {f g : α → Run β} (h : ∀ a, Q a → f a = g a) :
    (x >>= f) = (x >>= g) := by
  unfold Run.Keeps Run.Sat at hx
  refine ExceptT.ext ?_
  cases hr : x.run with
  | none => rw [run_bind_none hr, run_bind_none hr]
  | some r =>
    cases r with
    | error e => rw [run_bind_error hr, run_bind_error hr]
    | ok a => rw [run_bind_ok hr, run_bind_ok hr, h a (by rw [hr] at hx; exact hx)]

/-- C95: the frames and packets that the main program hands over may be overwritten by callbacks in any way, whatever else the callbacks
call: the run is the one with copies. -/
theorem C95_overwritten (P : Program) (depth : Nat) (w : World) (h : Settled (fun _ => False) w) (ops : List MainOp) :
    runVar P depth w ops = ops.foldlM (fun v op => stepN P (nested P depth) v (op.copied v)) w := by
  unfold runVar
  induction ops generalizing w with
  | nil => rfl
  | cons op ops ih =>
    rw [List.foldlM_cons, List.foldlM_cons]
    have e : stepVar P (nested P depth) w op = stepN P (nested P depth) w (op.copied w) := by
      have small : ∀ n, (w.parsers n).text.buffer.len ≤ 23 := fun n => by rw [h.empty n id]; decide
      cases op with
      | call op => rfl
      | handle frame => exact C95_frame P _ w frame (fun n _ => h.texts n) (fun n _ => small n)
      | parserAdd n data => exact C95_packet P _ w n data (h.texts n) (small n)
    rw [e]
    exact bind_congr_keeps (main_settled P depth w _ h) (fun v hv => ih v hv)

/-! ## Examples -/

/-- The variable of a receive loop into which a callback that has been told something receives the next frame. -/
def reused (f g : CanFrame) (told : Nat) : List LogEntry → CanFrame := fun l => if l.length ≤ told then f else g

/-- The demonstration of C74 with one variable for all frames, overwritten as soon as the consumer has been told something. -/
def reusedOps : List MainOp :=
  (demoOps.take 3).map .call ++ [.handle (reused (packet 8#8 (str ".a=\n.b=\n")) (packet 8#8 (str ".x=\n.y=\n")) 2), .call (.handle (packet 8#8 (str ".c=\n.d=\n")))]

/-- The main program may start like this, the variable is overwritten while the first data packet is handled, and all entries are those
that were received. -/
example : Settled (fun _ => False) demoWorld ∧
    outline (runVar (fun _ _ => []) 0 demoWorld reusedOps) =
      some ⟨[.entry 7 (str "a") [], .entry 7 (str "b") [], .entry 7 (str "c") [], .entry 7 (str "d") [], .aborted 7], .IDLE, some 0⟩ :=
  ⟨C95_start .., by decide +kernel⟩

/-- A parser in the middle of a packet with 24 bytes in its input buffer, as after three packets that were delivered inside one another. -/
def demoCrowded : World := demoInside.setText 0 (conc .start (some 7) (str ".1=\n.2=\n.3=\n.4=\n.5=\n.6=\n"))

/-- C95: the limit is exact. With 24 bytes waiting, 7 bytes of the packet are copied, and the last one is read after the entries have been
handed out: here it is no longer the end of a line, so the last entry is missing. -/
theorem C95_crowded :
    outline (parserAddVar (fun _ _ => []) (nested (fun _ _ => []) 0) demoCrowded 0 (fun l => if l = [] then (packet 8#8 (str ".a=\n.b=\n")).data else (packet 8#8 (str ".x=0.y=0")).data)) ≠
    outline (parserAddN (fun _ _ => []) (nested (fun _ _ => []) 0) demoCrowded 0 (packet 8#8 (str ".a=\n.b=\n")).data) := by
  decide +kernel

example : (demoCrowded.parsers 0).text.buffer.len = 24 ∧
    outline (parserAddN (fun _ _ => []) (nested (fun _ _ => []) 0) demoCrowded 0 (packet 8#8 (str ".a=\n.b=\n")).data) =
      some ⟨[.entry 7 (str "1") [], .entry 7 (str "2") [], .entry 7 (str "3") [], .entry 7 (str "4") [], .entry 7 (str "5") [], .entry 7 (str "6") [],
        .entry 7 (str "a") [], .entry 7 (str "b") []], .WAITING_DATA_PACKET, some 0⟩ ∧
    outline (parserAddVar (fun _ _ => []) (nested (fun _ _ => []) 0) demoCrowded 0 (fun l => if l = [] then (packet 8#8 (str ".a=\n.b=\n")).data else (packet 8#8 (str ".x=0.y=0")).data)) =
      some ⟨[.entry 7 (str "1") [], .entry 7 (str "2") [], .entry 7 (str "3") [], .entry 7 (str "4") [], .entry 7 (str "5") [], .entry 7 (str "6") [],
        .entry 7 (str "a") []], .WAITING_DATA_PACKET, some 0⟩ := by
  decide +kernel

end World

end RR32
