import Verif.Props.TurnsPossible

/-! # C91: without turns -/

set_option autoImplicit false

namespace RR32

open Spec

/-- What a station takes between two moments. -/
theorem takes_since {b b1 b' : Bus} {i : Nat} {ops : List Op} {more : List BusOp} (hp : b.pos i ≤ b.wire.length)
    (h1 : b.run (ops.map (.call i)) = .ok b1) (ho : ∀ op, BusOp.call i op ∈ more → isControl op = true) (h : b1.run more = .ok b')
    (hu : UpToDate b' i) : ∃ l : List Op, (b1.nodes i).run l = .ok (b'.nodes i) ∧ (∀ op ∈ l, Heard op) ∧
      l.filter (fun o => !isControl o) = (streamsFor i (b'.wire.drop (b.pos i))).map .handle := by
  obtain ⟨k1, k2, k3, lg, k4, k5⟩ := calls_run h1
  have hp1 : b1.pos i ≤ b1.wire.length := by rw [k2, k5, List.length_append]; omega
  obtain ⟨p2, ⟨new, w2⟩, l, r2, e2, t2⟩ := harmless_run i ho h hp1
  refine ⟨l, r2, e2, ?_⟩
  have ht : takenBy b1 i = ((b'.wire.take (b.pos i)).filter (fun x => x.1 ≠ some i)).map (fun x => .handle x.2) := by
    unfold takenBy
    rw [k2, w2, List.take_append_of_le_length (by rw [k5, List.length_append]; omega)]
  rw [taken_all hu, ht] at t2
  conv at t2 => lhs; rw [← List.take_append_drop (b.pos i) b'.wire, List.filter_append, List.map_append, List.filter_append]
  rw [← List.append_cancel_left t2, streamsFor, ← handles_filter, List.map_map]
  rfl

/-- C91, what is true without turns: the answer a station takes is the first stream that it receives after it asked, whoever asked for it,
whenever it was sent and whatever it is about. An engine then has the name that was asked for and all the rest from this stream, and the
application is told that it is complete. Streams after this one are not looked at. -/
theorem C91_first_partial {a : App} {b b1 b' : Bus} {i e : Nat} {m : List Byte} (hr : Ready a (b.nodes i))
    (he : (b.nodes i).station.callbacks.engine.isSome = true) (hi : (b.nodes i).processing = false) (hp : b.pos i ≤ b.wire.length)
    (hm : Readable 32 m) (hlen : (text m).length ≤ 16) (ask : b.run ((load a e m).map (.call i)) = .ok b1) {ops : List BusOp}
    (ho : ∀ op, BusOp.call i op ∈ ops → isControl op = true) (h : b1.run ops = .ok b') (hu : UpToDate b' i)
    {first : CanFrame} {rest more : List CanFrame} {items : List Item} {tail : Tail} {uid address : U32} {protocol : List Byte}
    (hw : WireStream first rest items tail) (hf : NamedEngineFile (entriesOf [] items) uid address protocol)
    (hs : streamsFor i (b'.wire.drop (b.pos i)) = (first :: rest) ++ more) :
    Mirrors ((b'.nodes i).engines e) ⟨text m, uid, address, protocol⟩ ∧
      (∀ x, x ≠ e → (b'.nodes i).engines x = (b.nodes i).engines x) ∧ (b'.nodes i).processing = false ∧ Ready a (b'.nodes i) ∧
      lastTold (b'.nodes i) = some (.streamEnd a.locoEnd a.loco true (.engine ((b'.nodes i).engines e))) := by
  obtain ⟨l, h1, h2, h3⟩ := takes_since hp ask ho h hu
  obtain ⟨v, k1, -, k3⟩ := load_any a (b.nodes i) hr e m hm hlen
  rw [(calls_run ask).1] at k1
  injection k1 with k1
  subst k1
  obtain ⟨u, k4, k5, k6, k7, -, -, k8, k9⟩ := k3 first rest items tail uid address protocol hw hf
  obtain ⟨v1, v2, -, -⟩ := load_state hr he e (Pends.idle hi) m hm hlen (calls_run ask).1
  rw [hs, List.map_append] at h3
  obtain ⟨l1, l2, rfl, h4, h5⟩ := List.filter_eq_append_iff.mp h3
  rw [World.run_append] at h1
  obtain ⟨y, h6, h7⟩ := bind_ok h1
  have same := answered_same v1 v2 h4 h6 k4
  have hy : y.station.callbacks.engine.isSome = true := by
    rw [same.station]
    have := (heard_run _ _ _ v1 v2 (Pends.any a _) (heard_of_filter (ops := (first :: rest).map .handle) (fs := first :: rest) (by
      rw [List.filter_eq_self]
      intro o ho
      obtain ⟨f, hf, rfl⟩ := List.mem_map.mp ho
      simp [isControl, hw.command f hf])) k4).2.1
    exact this
  have same2 := idle_run _ (same.ready k5).tx hy (by rw [same.processing]; exact k8) (fun op hop => h2 op (List.mem_append_right _ hop)) h7
  have all := same2.trans same
  refine ⟨by rw [all.engines]; exact k6, fun x hx => by rw [all.engines]; exact k7 x hx, by rw [all.processing]; exact k8, all.ready k5, ?_⟩
  rw [all.engines]
  exact all.last rfl k9

/-- C91 as stated is false: with every master and any two of its engines, two stations can ask for one each and be answered one after the other,
and the second has the data of the first engine under the name of the second, reported as complete. It received everything there was to
receive before it asked, and it received both answers. -/
theorem C91_mixed_partial (apps : Nat → App) (db : List EngineRecord) (hnames : (db.map (·.name)).Nodup) (hdb : db.length ≤ 255)
    (hv : ∀ r ∈ db, r.Valid) (b : Bus) (hb : Short b) (i j : Nat) (hij : i ≠ j) (hp : b.pos j ≤ b.wire.length) (hri : Ready (apps i) (b.nodes i))
    (hrj : Ready (apps j) (b.nodes j)) (he : (b.nodes j).station.callbacks.engine.isSome = true) (hi : (b.nodes j).processing = false)
    (r s : EngineRecord) (hrm : r ∈ db) (hsm : s ∈ db) (e e' : Nat) (m m' : List Byte) (hm : Readable 32 m) (hm' : Readable 32 m')
    (ht : text m = r.name) (ht' : text m' = s.name) :
    ∃ b1 b2 b3 b' first rest first' rest', b.run ((load (apps i) e m).map (.call i)) = .ok b1 ∧
      b1.run (List.replicate (b1.wire.length - b1.pos j) (.receive j)) = .ok b2 ∧ UpToDate b2 j ∧
      b2.run ((load (apps j) e' m').map (.call j)) = .ok b3 ∧
      Replies db ((b1.wire.drop b.wire.length).map (·.2)) first rest ∧ Replies db ((b3.wire.drop b2.wire.length).map (·.2)) first' rest' ∧
      b3.run (((first :: rest) ++ (first' :: rest')).map .foreign ++
        List.replicate (b3.wire.length + (rest.length + rest'.length + 2) - b3.pos j) (.receive j)) = .ok b' ∧ UpToDate b' j ∧
      Mirrors ((b'.nodes j).engines e') ⟨s.name, r.uid, r.address, r.protocol⟩ ∧
      lastTold (b'.nodes j) = some (.streamEnd (apps j).locoEnd (apps j).loco true (.engine ((b'.nodes j).engines e'))) := by
  have hlen : ∀ r ∈ db, r.name.length ≤ 16 := fun r h => (hv r h).nameLength
  have plain : ∀ (a : App) e m g, Op.sendPacket g ∉ load a e m := by intro a e m g; simp [load]
  have sentq : ∀ (c c' : Bus) (k : Nat) (ops : List Op), c.run (ops.map (.call k)) = .ok c' →
      sentSince (c.nodes k) (c'.nodes k) = (c'.wire.drop c.wire.length).map (·.2) := by
    intro c c' k ops h
    obtain ⟨-, -, -, lg, c3, c4⟩ := calls_run h
    unfold sentSince
    rw [c3, c4, List.drop_left, List.drop_left, List.map_map]
    show _ = List.map id (Bus.sent lg)
    rw [List.map_id]
    rfl
  -- the first station asks
  obtain ⟨v, a1, a2, -⟩ := load_any (apps i) (b.nodes i) hri e m hm (by rw [ht]; exact hlen r hrm)
  obtain ⟨b1, a3, a4⟩ := calls_can (plain _ e m) hb a1
  obtain ⟨a5, a6, a7, lg, a8, a9⟩ := calls_run a3
  rw [a1] at a5
  injection a5 with a5
  subst a5
  rw [ht] at a2
  obtain ⟨first, rest, a10⟩ := reply_exists db hdb hv _ _ a2 (Or.inr ⟨r, hrm, rfl⟩)
  -- the second receives this and asks
  have p1 : b1.pos j ≤ b1.wire.length := by rw [a6, a9, List.length_append]; omega
  have n1 : b1.nodes j = b.nodes j := a7 j (Ne.symm hij)
  obtain ⟨x, d1⟩ := idle_can (w := b1.nodes j) _ (by rw [n1]; exact hrj.tx) (by rw [n1]; exact he) (by rw [n1]; exact hi)
    (((b1.wire.drop (b1.pos j)).filter (fun x => x.1 ≠ some j)).map (·.2)) (by
      intro f hf
      obtain ⟨x, hx, rfl⟩ := List.mem_map.mp hf
      exact a4 x (List.mem_of_mem_drop (List.mem_of_mem_filter hx)))
  have d1 : (b1.nodes j).run (((b1.wire.drop (b1.pos j)).filter (fun x => x.1 ≠ some j)).map (fun x => Op.handle x.2)) = .ok x := by
    rw [List.map_map] at d1
    exact d1
  obtain ⟨b2, d2, d3, d4, d5, -⟩ := receive_all (b1.wire.length - b1.pos j) b1 j (by omega) x d1
  have same : SameData x (b.nodes j) := by
    rw [n1] at d1
    exact idle_run _ hrj.tx he hi (by
      intro o ho
      obtain ⟨x, -, rfl⟩ := List.mem_map.mp ho
      exact Or.inr ⟨_, rfl⟩) d1
  have up2 : UpToDate b2 j := by
    intro y hy
    rw [d5, d3, List.drop_of_length_le (Nat.le_refl _)] at hy
    cases hy
  have r2 : Ready (apps j) (b2.nodes j) := by rw [d4]; exact same.ready hrj
  have e2 : (b2.nodes j).station.callbacks.engine.isSome = true := by rw [d4, same.station]; exact he
  have i2 : (b2.nodes j).processing = false := by rw [d4, same.processing]; exact hi
  obtain ⟨z, f1, f2, f3⟩ := load_any (apps j) (b2.nodes j) r2 e' m' hm' (by rw [ht']; exact hlen s hsm)
  obtain ⟨b3, f4, f5⟩ := calls_can (plain _ e' m') (b := b2) (by intro y hy; rw [d3] at hy; exact a4 y hy) f1
  obtain ⟨f6, f7, -, lg', f8, f9⟩ := calls_run f4
  rw [f1] at f6
  injection f6 with f6
  subst f6
  rw [ht'] at f2
  obtain ⟨first', rest', f10⟩ := reply_exists db hdb hv _ _ f2 (Or.inr ⟨s, hsm, rfl⟩)
  -- both answers are sent and received
  obtain ⟨q, items, tail, hq, hw, hans⟩ := id a10
  rw [a2] at hq
  injection hq with hq
  subst hq
  obtain ⟨uid, address, protocol, hfile, rfl, rfl, rfl⟩ : ∃ uid address protocol, NamedEngineFile (entriesOf [] items) uid address protocol ∧
      uid = r.uid ∧ address = r.address ∧ protocol = r.protocol := by
    generalize hgen : Asked.engine r.name = q at hans
    cases hans with
    | names => cases hgen
    | engine r' hr' es h =>
      injection hgen with hgen
      have : r' = r := (List.inj_on_of_nodup_map hnames hrm hr' hgen).symm
      subst this
      exact ⟨_, _, _, h, rfl, rfl, rfl⟩
  obtain ⟨q', items', tail', -, hw', -⟩ := id f10
  obtain ⟨u, g1, g2, g3, g4, -, -, g5, g6⟩ := f3 first rest items tail _ _ _ hw hfile
  have e3 : u.station.callbacks.engine.isSome = true := by
    obtain ⟨v1, v2, -, -⟩ := load_state r2 e2 e' (Pends.idle i2) m' hm' (by rw [ht']; exact hlen s hsm) f1
    exact (heard_run _ _ _ v1 v2 (Pends.any (apps j) _) (by
      intro o ho
      obtain ⟨f, -, rfl⟩ := List.mem_map.mp ho
      exact Or.inr ⟨f, rfl⟩) g1).2.1
  obtain ⟨u', g7⟩ := idle_can _ g2.tx e3 g5 (first' :: rest') (wireStream_short hw')
  let b4 : Bus := { b3 with wire := b3.wire ++ ((first :: rest) ++ (first' :: rest')).map (fun f => (none, f)) }
  have p3 : b3.pos j ≤ b3.wire.length := by rw [f7, f9, d5, List.length_append, d3]; omega
  have hown : ((Bus.sent lg').map (fun f => (some j, f))).filter (fun x => x.1 ≠ some j) = [] := by
    rw [List.filter_eq_nil_iff]
    intro y hy
    obtain ⟨f, -, rfl⟩ := List.mem_map.mp hy
    simp
  have hnew : (((first :: rest) ++ (first' :: rest')).map (fun f => ((none : Option Nat), f))).filter (fun x => x.1 ≠ some j) =
      ((first :: rest) ++ (first' :: rest')).map (fun f => ((none : Option Nat), f)) := by
    rw [List.filter_eq_self]
    intro y hy
    obtain ⟨f, -, rfl⟩ := List.mem_map.mp hy
    simp
  have hears : ((b4.wire.drop (b4.pos j)).filter (fun x => x.1 ≠ some j)).map (fun x => Op.handle x.2) =
      ((first :: rest) ++ (first' :: rest')).map .handle := by
    show (((b3.wire ++ _).drop (b3.pos j)).filter _).map _ = _
    rw [List.drop_append_of_le_length p3, f7, f9, d5, ← d3, List.drop_left, List.filter_append, hown, hnew, List.nil_append, List.map_map]
    rfl
  have l4 : b4.wire.length = b3.wire.length + (rest.length + rest'.length + 2) := by
    show (b3.wire ++ _).length = _
    simp only [List.length_append, List.length_map, List.length_cons]
    omega
  obtain ⟨b', h1, h2, h3, h4, -⟩ := receive_all (b4.wire.length - b4.pos j) b4 j (by
    show b3.pos j + (_ - b3.pos j) = _
    omega) u' (by
    rw [hears, List.map_append, World.run_append]
    show (((b3.nodes j).run _).bind _) = _
    rw [g1]
    exact g7)
  have up' : UpToDate b' j := by
    intro y hy
    rw [h4, h2, List.drop_of_length_le (Nat.le_refl _)] at hy
    cases hy
  have same' := idle_run _ g2.tx e3 g5 (by
    intro o ho
    obtain ⟨f, -, rfl⟩ := List.mem_map.mp ho
    exact Or.inr ⟨f, rfl⟩) g7
  refine ⟨b1, b2, b3, b', first, rest, first', rest', a3, d2, up2, f4, ?_, ?_, ?_, up', ?_, ?_⟩
  · rw [← sentq b b1 i _ a3]; exact a10
  · rw [← sentq b2 b3 j _ f4]; exact f10
  · rw [runs_append, foreigns]
    show b4.run _ = _
    rw [← l4]
    exact h1
  · rw [h3, same'.engines, ← ht']
    exact g3
  · rw [h3, same'.engines]
    exact same'.last rfl g6

/-! ## Cases -/

/-- A bus on which all stations have started, each with its own objects. -/
theorem bus_ready : ∃ b : Bus, Short b ∧ b.wire = [] ∧ (∀ j, b.pos j = 0) ∧ (∀ j, Ready ⟨0, 7, 9, 8, 10, 5⟩ (b.nodes j)) ∧
    (∀ j, (b.nodes j).station.callbacks.engine.isSome = true) ∧ ∀ j, (b.nodes j).processing = false := by
  obtain ⟨w, h1, h2, h3⟩ := ready_busy
  exact ⟨⟨fun _ => w, [], fun _ => 0⟩, (by intro x hx; cases hx), rfl, fun _ => rfl, fun _ => h1, fun _ => h2, fun _ => h3⟩

/-- C91: three stations load the three engines of a master, in an irregular order, and all of them have them. -/
example : ∃ (b b' : Bus) (xs : List (Nat × Next)), Turns (fun _ => ⟨0, 7, 9, 8, 10, 5⟩) caseMaster b xs b' ∧
    ∀ j ∈ [1, 2, 3], text ((b'.nodes j).engines 2).info.name = str "ET 515 Limburger" := by
  obtain ⟨b, h1, h2, h3, h4, h5, h6⟩ := bus_ready
  have hp : ∀ j, b.pos j ≤ b.wire.length := fun j => by rw [h3 j]; omega
  have hc : ∀ j, [1, 2, 2, 3, 1, 3, 3, 1, 2].count j ≤ caseMaster.length := by
    intro j
    have : ∀ k ∈ [1, 2, 2, 3, 1, 3, 3, 1, 2], [1, 2, 2, 3, 1, 3, 3, 1, 2].count k ≤ 3 := by decide
    by_cases hj : j ∈ [1, 2, 2, 3, 1, 3, 3, 1, 2]
    · exact this j hj
    · rw [List.count_eq_zero_of_not_mem hj]; omega
  obtain ⟨xs, b', h7, h8⟩ := C91_possible (fun _ => ⟨0, 7, 9, 8, 10, 5⟩) caseMaster (by decide) (by decide) caseMaster_valid b h1 hp h4 h5 h6
    [1, 2, 2, 3, 1, 3, 3, 1, 2] hc
  refine ⟨b, b', xs, h7, ?_⟩
  intro j hj
  have hm := (C91_mirror_partial (by decide) (by decide) (by decide) h7 j (hp j) (h4 j) (h5 j) (h6 j) (by
    rw [h8 j]
    have : ∀ k ∈ [1, 2, 3], [1, 2, 2, 3, 1, 3, 3, 1, 2].count k = caseMaster.length := by decide
    rw [this j hj])).1 2 (by decide)
  exact hm.name

/-- C91: two stations that ask at the same time. -/
example : ∃ (b b' : Bus) (ops : List BusOp), b.run ops = .ok b' ∧ UpToDate b' 2 ∧ text ((b'.nodes 2).engines 4).info.name = str "Re 460" ∧
    ((b'.nodes 2).engines 4).data.uid = 0x4006#32 := by
  obtain ⟨b, h1, h2, h3, h4, h5, h6⟩ := bus_ready
  obtain ⟨b1, b2, b3, b', _, _, _, _, k1, k2, -, k3, -, -, k4, h8, h7, -⟩ := C91_mixed_partial (fun _ => ⟨0, 7, 9, 8, 10, 5⟩) caseMaster
    (by decide) (by decide) caseMaster_valid b h1 1 2 (by decide) (by rw [h3]; omega) (h4 1) (h4 2) (h5 2) (h6 2) caseMaster[0] caseMaster[1]
    (by decide) (by decide) 3 4 (str "BR 12" ++ [0#8]) (str "Re 460" ++ [0#8]) (Or.inr (by decide)) (Or.inr (by decide)) (by decide) (by decide)
  have run : ∀ {c c' c'' : Bus} {l m : List BusOp}, c.run l = .ok c' → c'.run m = .ok c'' → c.run (l ++ m) = .ok c'' := by
    intro c c' c'' l m h h'
    rw [runs_append, h]
    exact h'
  exact ⟨b, b', _, run k1 (run k2 (run k3 k4)), h8, h7.name, h7.uid⟩

end RR32
