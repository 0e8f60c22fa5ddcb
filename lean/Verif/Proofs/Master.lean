import Verif.Props.EndToEnd
import Verif.Spec.Master

/-! # Requests that a master reads -/

set_option autoImplicit false

namespace RR32

open Spec

/-- The frames in a part of the log. -/
def framesOf (l : List LogEntry) : List CanFrame :=
  l.filterMap (fun e => match e with
    | .call (.tx _ f) => some f
    | _ => none)

/-- The frames sent between two states. -/
def sentSince (w v : World) : List CanFrame := framesOf (v.log.drop w.log.length)

theorem framesOf_append (a b : List LogEntry) : framesOf (a ++ b) = framesOf a ++ framesOf b := List.filterMap_append ..

theorem framesOf_quiet (l : List LogEntry) (h : ∀ e ∈ l, e.notCall) : framesOf l = [] := by
  induction l with
  | nil => rfl
  | cons e l ih =>
    have he := h e (List.mem_cons_self ..)
    have := ih (fun x hx => h x (List.mem_cons_of_mem _ hx))
    cases e with
    | call c => exact absurd he (by simp [LogEntry.notCall])
    | consumer c => exact this
    | streamEnd a b c d => exact this

theorem framesOf_tx (cb : Nat) (fs : List CanFrame) : framesOf (fs.map (fun f => .call (.tx cb f))) = fs := by
  induction fs with
  | nil => rfl
  | cons f fs ih => exact congrArg (f :: ·) ih

/-- The state after a consumer was attached and something requested, with nothing registered before. -/
def World.requested (w : World) (n c cb : Nat) (fs : List CanFrame) : World :=
  { w with
    station := { w.station with callbacks := { w.station.callbacks with configData := some n } }
    parsers := fun m => if m = n then ((w.parsers n).startStreamConsumer (some c)).startStream else w.parsers m
    log := w.log ++ fs.map (fun f => .call (.tx cb f)) }

theorem carried_eq (f : CanFrame) (h : f.data.dlc.toNat ≤ 8) : carried f = f.data.bytes.take f.data.dlc.toNat := by
  have : f.data.bytes = [f.data.b0, f.data.b1, f.data.b2, f.data.b3, f.data.b4, f.data.b5, f.data.b6, f.data.b7] ++ [f.data.b8] := rfl
  rw [this, List.take_append_of_le_length (by simpa using h)]
  rfl

theorem sent_command {f : CanFrame} {hash : U16} {command dlc : Nat} (h : SentFrame f hash command dlc) (hc : command < 256) :
    commandOf f = command ∧ responseOf f = false := by
  have := hash.isLt
  unfold commandOf responseOf
  rw [h.raw]
  constructor
  · omega
  · rw [decide_eq_false_iff_not]
    omega

/-- A master understands the request for a page of names. -/
theorem readNumbers_page : ∀ o : Byte, readNumbers (str (toString o.toNat ++ " 2")) = (o.toNat, 2) := by
  decide +kernel

theorem runCalls_requested (w : World) (n c cb : Nat) (fs : List CanFrame) :
    { (w.setParser n ((w.parsers n).startStreamConsumer (some c))) with
      station := { w.station with callbacks := { w.station.callbacks with configData := some n } } }.runCalls
      ([Call.cfgStart n] ++ fs.map (Call.tx cb)) = .ok (w.requested n c cb fs) := by
  show World.runCalls (World.setParser _ n _) _ = _
  rw [World.runCalls_tx _ cb _ (fun x hx => by
    obtain ⟨f, -, rfl⟩ := List.mem_map.mp hx
    exact ⟨f, rfl⟩)]
  simp only [World.requested, World.logAll, World.setParser, if_true]
  congr 2
  · funext m
    split <;> rfl
  · congr 1
    exact List.map_map

/-- The request for a page of the list. -/
theorem run_list (w : World) (n c cb : Nat) (htx : w.station.callbacks.tx = some cb) (hnone : w.station.callbacks.configData = none) (o : Byte) :
    ∃ fs, w.run [.parserStart n (some c), .requestEngineList o (some n)] = .ok (w.requested n c cb fs) ∧ asked fs = some (.names o.toNat 2) := by
  obtain ⟨f1, f2, h1, h2, h3, h4, h5⟩ := C20_request_engine_list w.station cb htx o (some n)
  refine ⟨[f1, f2], ?_, ?_⟩
  · rw [World.run_cons]
    show (World.stationUpdate _ (w.station.RequestEngineList o (some n)) >>= fun v => .ok v) = _
    rw [h1, hnone]
    show ((World.runCalls _ ([Call.cfgStart n] ++ [f1, f2].map (Call.tx cb))) >>= fun v => .ok v) = _
    rw [show ∀ x : Res World, (x >>= fun v => .ok v) = x from fun x => by cases x <;> rfl]
    exact runCalls_requested w n c cb [f1, f2]
  · have c1 := sent_command h2 (by decide)
    have c2 := sent_command h4 (by decide)
    have d1 : carried f1 = str "loknamen" := by rw [carried_eq f1 (by rw [h2.length]), h2.length, h3]
    have d2 : carried f2 = str (toString o.toNat ++ " 2") := by
      rw [carried_eq f2 (by rw [h4.length]; exact h4.length_le), h4.length, h5, List.take_left]
    unfold asked
    rw [if_pos (by
      intro f hf
      simp only [List.mem_cons, List.not_mem_nil, or_false] at hf
      rcases hf with rfl | rfl
      · exact c1
      · exact c2)]
    simp only [List.map_cons, List.map_nil, d1, d2, if_true, readNumbers_page]

/-- The request for an engine whose name has at most 16 characters. -/
theorem run_engine (w : World) (n c cb e : Nat) (htx : w.station.callbacks.tx = some cb) (hnone : w.station.callbacks.configData = none)
    (hk : (w.engines e).info.isNameKnown = true) (ht : Terminated (w.engines e).info.name) (hl : (text (w.engines e).info.name).length ≤ 16) :
    ∃ fs, w.run [.parserStart n (some c), .requestEngine e (some n)] = .ok (w.requested n c cb fs) ∧
      asked fs = some (.engine (text (w.engines e).info.name)) := by
  obtain ⟨r, hr⟩ := split_text ht
  obtain ⟨f1, f2, f3, h1, h2, h3, h4, h5, h6, h7⟩ := C21_request_engine w.station cb htx w.processing (w.engines e).info (some n)
    (text (w.engines e).info.name) r hr (text_noNul _) hk (Or.inl hnone)
  refine ⟨[f1, f2, f3], ?_, ?_⟩
  · rw [World.run_cons]
    have hp : (w.setParser n ((w.parsers n).startStreamConsumer (some c))).processing = w.processing := by
      unfold World.processing
      show (match w.station.callbacks.configData with | none => false | some n' => _) = _
      rw [hnone]
    show (World.stationUpdate _ (w.station.RequestEngine (World.processing _) (w.engines e).info (some n)) >>= fun v => .ok v) = _
    rw [hp, h1, hnone]
    show ((World.runCalls _ ([Call.cfgStart n] ++ [f1, f2, f3].map (Call.tx cb))) >>= fun v => .ok v) = _
    rw [show ∀ x : Res World, (x >>= fun v => .ok v) = x from fun x => by cases x <;> rfl]
    exact runCalls_requested w n c cb [f1, f2, f3]
  · have c1 := sent_command h2 (by decide)
    have c2 := sent_command h4 (by decide)
    have c3 := sent_command h6 (by decide)
    have d1 : carried f1 = str "lokinfo" ++ [0#8] := by rw [carried_eq f1 (by rw [h2.length]), h2.length, h3]
    have d2 := carried_eq f2 (by rw [h4.length])
    have d3 := carried_eq f3 (by rw [h6.length])
    rw [h4.length, h5] at d2
    rw [h6.length, h7] at d3
    unfold asked
    rw [if_pos (by
      intro f hf
      simp only [List.mem_cons, List.not_mem_nil, or_false] at hf
      rcases hf with rfl | rfl | rfl
      · exact c1
      · exact c2
      · exact c3)]
    simp only [List.map_cons, List.map_nil, d1, d2, d3, if_true, List.take_append_drop]
    have hseen := C21_name_seen _ (text_noNul (w.engines e).info.name)
    rw [List.take_of_length_le hl] at hseen
    have hpad : paddedName (text (w.engines e).info.name) = text (w.engines e).info.name ++
        List.replicate (16 - (text (w.engines e).info.name).length) 0#8 := by
      rw [paddedName, List.take_append, List.take_of_length_le hl, List.take_replicate]
      congr 2
      omega
    rw [hpad]
    have : ∀ (t : List Byte) (k : Nat), NoNul t → text (t ++ List.replicate k 0#8) = t := by
      intro t k ht
      unfold text
      rw [List.takeWhile_append_of_pos (by
        intro b hb
        simpa using ht b hb)]
      cases k with
      | zero => simp
      | succ k => simp [List.replicate_succ]
    rw [this _ _ (text_noNul _)]

/-- The frames of a document, after the request. -/
theorem served (w : World) (h : Sound w) (n c cb : Nat) (hf : Fresh (w.parsers n)) (fs : List CanFrame) (first : CanFrame)
    (rest : List CanFrame) (items : List Item) (tail : Tail) (hw : WireStream first rest items tail) :
    ∃ q, (w.requested n c cb fs).run ((first :: rest).map .handle) =
      ((w.requested n c cb fs).setParser n q).callConsumers (calls c ((entriesOf [] items).map .entry ++ [.complete])) ∧
      q.state = .STREAM_DONE := by
  obtain ⟨s, hs⟩ := h.parsers n
  have hfresh := fresh_attach hf (some c)
  obtain ⟨q, h1, h2, -⟩ := World.stream_served (w.requested n c cb fs) n rfl ((w.parsers n).startStreamConsumer (some c)) s
    (attach_sinv _ s hs (some c)) (by simp [World.requested]) (by rw [hfresh.2]; rfl) first rest items tail hw
  rw [hfresh.2] at h1
  refine ⟨q, ?_, h2⟩
  rw [h1]
  have : content (conc .start ((w.parsers n).startStreamConsumer (some c)).consumer []).sect = [] := ofc.content_eq ..
  rw [this]
  rfl

/-- Ending the current request. -/
theorem abort_ok (w : World) (h : Sound w) (ht : Tidy w) :
    ∃ v l, w.step .abort = .ok v ∧ Sound v ∧ Tidy v ∧
      v.station = { w.station with callbacks := { w.station.callbacks with configData := none } } ∧
      v.engines = w.engines ∧ v.pf = w.pf ∧ (∀ c, (w.consumers c).AbortedFrom (v.consumers c)) ∧ v.log = w.log ++ l ∧ framesOf l = [] ∧
      (w.processing = false → v.consumers = w.consumers) := by
  have hok : ∃ v l, w.step .abort = .ok v ∧ v.station = { w.station with callbacks := { w.station.callbacks with configData := none } } ∧
      v.engines = w.engines ∧ v.pf = w.pf ∧ (∀ c, (w.consumers c).AbortedFrom (v.consumers c)) ∧ v.log = w.log ++ l ∧ framesOf l = [] ∧
      (w.processing = false → v.consumers = w.consumers) := by
    show ∃ v l, w.stationUpdate (.ok w.station.FinishCurrentConfigRequest) = .ok v ∧ _
    unfold Station.FinishCurrentConfigRequest
    cases hc : w.station.callbacks.configData with
    | none =>
      refine ⟨w, [], rfl, ?_, rfl, rfl, fun c => Or.inl rfl, by simp, rfl, fun _ => rfl⟩
      rw [← hc]
    | some m =>
      have hw : Sound { w with station := { w.station with callbacks := { w.station.callbacks with configData := none } } } :=
        ⟨h.parsers, h.attached⟩
      obtain ⟨v, g1, g2, g3, g4, g5, g6, -⟩ := World.reset_ok _ hw m
      obtain ⟨-, -, l, g7, g8⟩ := World.parserReset_quiet _ _ _ g1
      refine ⟨v, l, ?_, g5, g3, g4, g6, g7, framesOf_quiet l g8, ?_⟩
      · show (World.runCalls _ [Call.cfgReset m]) = _
        show (World.parserReset _ m >>= fun v => .ok v) = _
        rw [g1]
        rfl
      · intro hp
        unfold World.processing at hp
        rw [hc] at hp
        obtain ⟨s, hs⟩ := h.parsers m
        have hn : (w.parsers m).resetNotify = [] := by
          unfold StreamParser.resetNotify
          unfold StreamParser.isProcessing at hp
          rw [if_neg (by
            intro h
            rcases h with h | h <;> simp [h] at hp)]
        have : World.parserReset _ m = .ok v := g1
        simp only [World.parserReset, reset_sinv _ s hs, bind, Except.bind, hn] at this
        cases this
        rfl
  obtain ⟨v, l, h1, h2⟩ := hok
  exact ⟨v, l, h1, (C58_step w h .abort trivial).2 v h1, tidy_step ht h rfl h1, h2⟩

end RR32
