import Verif.Spec.EngineMemory
import Verif.Props.Memory
import Verif.Props.Valid

/-! # C102: what an engine's data are -/

set_option autoImplicit false

namespace RR32

open Spec

theorem Spec.Obeys.refl {α : Type} (a : α) : Obeys none a a := ⟨fun _ h => (by cases h), fun _ => rfl⟩

theorem Spec.Obeys.said {α : Type} {p : α → Prop} {a b : α} (h : p b) : Obeys (some p) a b := ⟨fun _ e => (by cases e; exact h), fun h => (by cases h)⟩

theorem Spec.Obeys.trans {α : Type} {x y : Option (α → Prop)} {a b c : α} (h : Obeys x a b) (k : Obeys y b c) : Obeys (y.or x) a c := by
  cases y with
  | some p => exact ⟨fun q hq => k.1 q hq, fun hq => (by cases hq)⟩
  | none =>
    have := k.2 rfl
    subst this
    exact h

theorem Spec.Describes.nil (pf : Platform) (l : Locomotive) : Describes pf l [] l :=
  ⟨.refl _, .refl _, .refl _, .refl _, rfl, rfl⟩

theorem Spec.Describes.trans {pf : Platform} {l m k : Locomotive} {a b : List EngineEvent} (h : Describes pf l a m) (j : Describes pf m b k) :
    Describes pf l (a ++ b) k := by
  refine ⟨?_, ?_, ?_, ?_, ?_, ?_⟩
  · rw [latest_append]; exact h.uid.trans j.uid
  · rw [latest_append]; exact h.address.trans j.address
  · rw [latest_append]; exact h.protocol.trans j.protocol
  · rw [latest_append]; exact h.name.trans j.name
  · rw [latest_append, j.known, h.known]; cases latest saysKnown b <;> rfl
  · rw [latest_append, j.state, h.state]; cases latest saysState b <;> rfl

theorem latest_one {ε α : Type} (f : ε → Option α) (e : ε) : latest f [e] = f e := by
  unfold latest
  simp only [List.filterMap_cons, List.filterMap_nil]
  cases f e <;> rfl

theorem readable_of_strncpy {n : Nat} {src l : List Byte} (h : strncpyBytes n src = .ok l) : Readable n src := by
  induction src generalizing n l with
  | nil =>
    cases n with
    | zero => exact .inl (Nat.zero_le _)
    | succ n => cases h
  | cons c cs ih =>
    cases n with
    | zero => exact .inl (Nat.zero_le _)
    | succ n =>
      simp only [strncpyBytes] at h
      by_cases hc : c = 0#8
      · subst hc
        exact .inr (List.mem_cons_self ..)
      · rw [if_neg hc] at h
        obtain ⟨r, hr, -⟩ := bind_ok h
        rcases ih hr with h1 | h1
        · exact .inl (by simpa using h1)
        · exact .inr (List.mem_cons_of_mem _ h1)

/-- What a successful `strncpy` leaves in the bytes it writes. -/
theorem strncpy_leaves {dst src p : List Byte} {n : Nat} (h : strncpy dst src n = .ok p) : text (p.take n) = (text src).take n := by
  obtain ⟨l, h1, h2⟩ := bind_ok h
  have hr := readable_of_strncpy h1
  rw [strncpyBytes_text n src hr] at h1
  cases h1
  unfold poke at h2
  split at h2
  · cases h2
    have hl : ((text src).take n ++ List.replicate (n - (text src).length) (0#8 : Byte)).length = n := by simp; omega
    rw [List.take_append_of_le_length (Nat.le_of_eq hl.symm), List.take_of_length_le (Nat.le_of_eq hl)]
    exact text_append_zeros _ ((text_noNul src).take n) _
  · cases h2

theorem describes_named {pf : Platform} {l l' : Locomotive} {name : List Byte} (h : l.setName name = .ok l') : Describes pf l [.named name] l' := by
  obtain ⟨m, h1, h2⟩ := bind_ok h
  cases h2
  refine ⟨?_, ?_, ?_, ?_, rfl, rfl⟩
  · rw [latest_one]; exact .said rfl
  · rw [latest_one]; exact .said rfl
  · rw [latest_one]; exact .said (by rfl)
  · rw [latest_one]
    refine .said ?_
    obtain ⟨b, h3, -⟩ := bind_ok h1
    have hr := readable_of_strncpy h3
    have := strncpy_text (List.replicate 33 0#8) name 32 hr (by simp)
    have h4 : strncpy (List.replicate 33 0#8) name 32 = .ok m := h1
    rw [this] at h4
    cases h4
    exact (name_memory name).2.2

theorem describes_assigned (pf : Platform) (l l' : Locomotive) : Describes pf l [.assigned l'] l' := by
  refine ⟨?_, ?_, ?_, ?_, rfl, rfl⟩ <;> rw [latest_one] <;> exact .said rfl

theorem describes_complete (pf : Platform) (l : Locomotive) : Describes pf l [.complete] (l.setAvailability .FULL_DETAILS) := by
  refine ⟨?_, ?_, ?_, ?_, rfl, rfl⟩ <;> rw [latest_one] <;> exact .refl _

theorem strncmpEq_passes {b : BufferManager} {e : List Byte} {r : Bool} (he : NoNul e) (h : strncmpEq b.len (e ++ [0#8]) b.mem = .ok r) :
    r = passes e b := by
  have := strncmpEq_says h
  rw [text_lit e he] at this
  rw [this, passes, decide_eq_decide]
  exact eq_comm

theorem strtoul16_taken {pf : Platform} {m : List Byte} {v : Nat} (h : strtoul16 pf m = .ok v) : HexTakenFor pf m (BitVec.ofNat 32 v) := by
  intro pre l n ht hm hp hn hne
  rw [strtoul16_numeral pf m pre l n ht hm hp hn hne] at h
  cases h
  have h1 : 0 < 2 ^ pf.longBits := Nat.pow_pos (by decide)
  generalize 2 ^ pf.longBits = k at *
  by_cases hk : k ≤ n
  · rw [if_pos hk, Nat.min_eq_right (by omega)]
  · rw [if_neg hk, Nat.min_eq_left (by omega)]

theorem describes_entry {pf : Platform} {l l' : Locomotive} {s k v : BufferManager} (h : LocoConsumer.consumeOn pf l s k v = .ok l') :
    Describes pf l [.entry s k v] l' := by
  obtain ⟨n1, n2, n3, n4, -⟩ := noNul_names
  have nothing : keyOf s k = none → l' = l → Describes pf l [.entry s k v] l' := by
    rintro hk rfl
    refine ⟨?_, ?_, ?_, ?_, rfl, rfl⟩ <;> rw [latest_one]
    · rw [saysUid, hk]; exact .refl _
    · rw [saysAddress, hk]; exact .refl _
    · rw [saysProtocol, hk]; exact .refl _
    · exact .refl _
  unfold LocoConsumer.consumeOn at h
  obtain ⟨b1, hb1, h⟩ := bind_ok h
  have p1 := strncmpEq_passes n1 hb1
  cases b1 with
  | false => exact nothing (by rw [keyOf, ← p1]; rfl) (by cases h; rfl)
  | true =>
    simp only [if_true] at h
    obtain ⟨b2, hb2, h⟩ := bind_ok h
    have p2 := strncmpEq_passes n2 hb2
    cases b2 with
    | true =>
      simp only [if_true] at h
      obtain ⟨x, hx, h⟩ := bind_ok h
      cases h
      have hk : keyOf s k = some (str "uid") := by rw [keyOf, ← p1]; simp [← p2]
      refine ⟨?_, ?_, ?_, ?_, rfl, rfl⟩ <;> rw [latest_one]
      · rw [saysUid, hk]; exact .said (strtoul16_taken hx)
      · rw [saysAddress, hk]; exact .refl _
      · rw [saysProtocol, hk]; exact .refl _
      · exact .refl _
    | false =>
      simp only [Bool.false_eq_true, if_false] at h
      obtain ⟨b3, hb3, h⟩ := bind_ok h
      have p3 := strncmpEq_passes n3 hb3
      cases b3 with
      | true =>
        simp only [if_true] at h
        obtain ⟨x, hx, h⟩ := bind_ok h
        cases h
        have hk : keyOf s k = some (str "typ") := by rw [keyOf, ← p1]; simp [← p2, ← p3]
        refine ⟨?_, ?_, ?_, ?_, rfl, rfl⟩ <;> rw [latest_one]
        · rw [saysUid, hk]; exact .refl _
        · rw [saysAddress, hk]; exact .refl _
        · rw [saysProtocol, hk]; exact .said (strncpy_leaves hx)
        · exact .refl _
      | false =>
        simp only [Bool.false_eq_true, if_false] at h
        obtain ⟨b4, hb4, h⟩ := bind_ok h
        have p4 := strncmpEq_passes n4 hb4
        cases b4 with
        | true =>
          simp only [if_true] at h
          obtain ⟨x, hx, h⟩ := bind_ok h
          cases h
          have hk : keyOf s k = some (str "adresse") := by rw [keyOf, ← p1]; simp [← p2, ← p3, ← p4]
          refine ⟨?_, ?_, ?_, ?_, rfl, rfl⟩ <;> rw [latest_one]
          · rw [saysUid, hk]; exact .refl _
          · rw [saysAddress, hk]; exact .said (strtoul16_taken hx)
          · rw [saysProtocol, hk]; exact .refl _
          · exact .refl _
        | false => exact nothing (by rw [keyOf, ← p1]; simp [← p2, ← p3, ← p4]) (by cases h; rfl)

/-- A call leaves the engine as what it was told says, and consumers write to the engines to which they wrote before. -/
def EngineFollows (n : Nat) (w w' : World) : Prop :=
  w'.pf = w.pf ∧ (∀ c, writes w' c n = writes w c n) ∧
    ∃ l, w'.log = w.log ++ l ∧ Describes w.pf (w.engines n) (l.filterMap (engineHears w n)) (w'.engines n)

theorem engineHears_congr {w w' : World} {n : Nat} (h : ∀ c, writes w' c n = writes w c n) : engineHears w' n = engineHears w n := by
  funext e
  rcases e with _ | ⟨c, _ | _ | _⟩ | _
  all_goals first | rfl | skip
  all_goals simp only [engineHears, h]

theorem engineFollows_same {n : Nat} {w w' : World} (l : List LogEntry) (hl : w'.log = w.log ++ l) (hp : w'.pf = w.pf)
    (hc : ∀ c, writes w' c n = writes w c n) (he : w'.engines n = w.engines n) (hn : l.filterMap (engineHears w n) = []) : EngineFollows n w w' :=
  ⟨hp, hc, l, hl, by rw [hn, he]; exact .nil _ _⟩

theorem writes_list {w : World} {c : Nat} {l l' : LocoListConsumer} (h : w.consumers c = .list l) (n m : Nat) :
    writes (w.setConsumer c (.list l')) m n = writes w m n := by
  unfold writes World.setConsumer
  by_cases hm : m = c
  · subst hm
    simp [h]
  · simp [hm]

theorem engineHears_ends {α : Type} (w : World) (n x : Nat) (f : α → Seen) (es : List (EndCall α)) :
    (World.endLog x f es).filterMap (engineHears w n) = [] := by
  unfold World.endLog
  rw [List.filterMap_map, List.filterMap_eq_nil_iff]
  intro a _
  rfl

theorem engineHears_not {w : World} {n : Nat} {k : ConsumerCall} (h : writes w k.consumer n = false) : engineHears w n (.consumer k) = none := by
  rcases k with ⟨c, _ | _ | _⟩
  · exact if_neg (by rw [h]; decide)
  · exact if_neg (by rw [h]; decide)
  · rfl

theorem engineFollows_frame (n : Nat) : World.Frame (EngineFollows n) where
  refl w := engineFollows_same [] (by simp) rfl (fun _ => rfl) rfl rfl
  trans := by
    rintro a b c ⟨p1, w1, l1, e1, h1⟩ ⟨p2, w2, l2, e2, h2⟩
    refine ⟨p2.trans p1, fun x => (w2 x).trans (w1 x), l1 ++ l2, by rw [e2, e1, List.append_assoc], ?_⟩
    rw [engineHears_congr w1, p1] at h2
    rw [List.filterMap_append]
    exact h1.trans h2
  parser w m p := engineFollows_same [] (by simp [World.setParser]) rfl (fun _ => rfl) rfl rfl
  station w s := engineFollows_same [] (by simp) rfl (fun _ => rfl) rfl rfl
  call w c := engineFollows_same [.call c] rfl rfl (fun _ => rfl) rfl rfl
  consumer := by
    intro w w' c h
    rcases World.callConsumer_cases h with ⟨l, s, k, v, es, h1, h2, h3, rfl⟩ | ⟨l, es, es', h1, h2, h3, rfl⟩ | ⟨l, es', h1, h2, h3, rfl⟩ |
      ⟨l, s, k, v, l', h1, h2, h3, rfl⟩ | ⟨l, l', es', h1, h2, h3, rfl⟩ | ⟨l, l', es', h1, h2, h3, rfl⟩ | ⟨h1, rfl⟩
    · refine ⟨rfl, fun _ => rfl, [.consumer c], rfl, ?_⟩
      have hw : writes w c.consumer n = (l.currentEngine == .obj n) := by unfold writes; rw [h1]
      unfold LocoConsumer.consumeConfigData at h3
      obtain ⟨r, hr, h3⟩ := bind_ok h3
      obtain ⟨cn, ca⟩ := c
      simp only at h1 h2 hw
      subst h2
      cases hp : l.currentEngine with
      | uninit => rw [hp] at hr; cases hr
      | null =>
        rw [hp] at hr hw
        cases hr
        cases h3
        rw [List.filterMap_cons_none (engineHears_not (k := ⟨cn, _⟩) hw)]
        exact .nil _ _
      | obj m =>
        rw [hp] at hr hw
        cases hr
        obtain ⟨e, h4, h3⟩ := bind_ok h3
        cases h3
        show Describes _ _ _ (Engines.set w.engines m e n)
        unfold Engines.set
        by_cases hm : n = m
        · subst hm
          rw [if_pos rfl, List.filterMap_cons_some (show engineHears w n (.consumer ⟨cn, .consume s k v⟩) = some (.entry s k v) from if_pos (by rw [hw]; simp))]
          exact describes_entry h4
        · rw [if_neg hm, List.filterMap_cons_none (engineHears_not (k := ⟨cn, _⟩) (by rw [hw]; simpa using fun hh => hm hh.symm))]
          exact .nil _ _
    · refine ⟨rfl, fun _ => rfl, [.consumer c] ++ World.endLog c.consumer .engine es', by simp [World.logAll], ?_⟩
      rw [List.filterMap_append, engineHears_ends, List.append_nil]
      have hw : writes w c.consumer n = (l.currentEngine == .obj n) := by unfold writes; rw [h1]
      unfold LocoConsumer.setStreamComplete at h3
      obtain ⟨r, hr, h3⟩ := bind_ok h3
      obtain ⟨cn, ca⟩ := c
      simp only at h1 h2 hw
      subst h2
      cases hp : l.currentEngine with
      | uninit => rw [hp] at hr; cases hr
      | null =>
        rw [hp] at hr hw
        cases hr
        cases h3
        rw [List.filterMap_cons_none (engineHears_not (k := ⟨cn, _⟩) hw)]
        exact .nil _ _
      | obj m =>
        rw [hp] at hr hw
        cases hr
        obtain ⟨_, -, h3⟩ := bind_ok h3
        obtain ⟨cb, -, h3⟩ := bind_ok h3
        cases h3
        show Describes _ _ _ (Engines.set w.engines m _ n)
        unfold Engines.set
        by_cases hm : n = m
        · subst hm
          rw [if_pos rfl, List.filterMap_cons_some (show engineHears w n (.consumer ⟨cn, .complete⟩) = some .complete from if_pos (by rw [hw]; simp))]
          exact describes_complete _ _
        · rw [if_neg hm, List.filterMap_cons_none (engineHears_not (k := ⟨cn, _⟩) (by rw [hw]; simpa using fun hh => hm hh.symm))]
          exact .nil _ _
    · refine engineFollows_same ([.consumer c] ++ World.endLog c.consumer (fun _ => .nothing) es') (by simp [World.logAll]) rfl (fun _ => rfl) rfl ?_
      rw [List.filterMap_append, engineHears_ends, List.append_nil]
      obtain ⟨cn, ca⟩ := c
      simp only at h2
      subst h2
      rfl
    · refine engineFollows_same [.consumer c] rfl rfl (writes_list (w := w.logAll [.consumer c]) h1 n) rfl ?_
      rw [List.filterMap_cons_none (engineHears_not (by unfold writes; rw [h1]))]
      rfl
    · refine engineFollows_same ([.consumer c] ++ World.endLog c.consumer .list es') (by simp [World.logAll, World.setConsumer]) rfl
        (writes_list (w := w.logAll [.consumer c]) h1 n) rfl ?_
      rw [List.filterMap_append, engineHears_ends, List.append_nil, List.filterMap_cons_none (engineHears_not (by unfold writes; rw [h1]))]
      rfl
    · refine engineFollows_same ([.consumer c] ++ World.endLog c.consumer .list es') (by simp [World.logAll, World.setConsumer]) rfl
        (writes_list (w := w.logAll [.consumer c]) h1 n) rfl ?_
      rw [List.filterMap_append, engineHears_ends, List.append_nil, List.filterMap_cons_none (engineHears_not (by unfold writes; rw [h1]))]
      rfl
    · refine engineFollows_same [.consumer c] rfl rfl (fun _ => rfl) rfl ?_
      rw [List.filterMap_cons_none (engineHears_not (by unfold writes; rw [h1]))]
      rfl

theorem own_engine {w w' : World} {op : Op} (ho : op.isOwn = true) (n : Nat) (h : w.step op = .ok w') :
    Describes w.pf (w.engines n) (edits n op) (w'.engines n) := by
  cases op <;> first | (cases ho; done) | skip
  case setName e name =>
    obtain ⟨l, h1, h⟩ := bind_ok h
    cases h
    show Describes _ _ (if e = n then _ else _) (Engines.set w.engines e l n)
    unfold Engines.set
    by_cases he : n = e
    · subst he
      rw [if_pos rfl, if_pos rfl]
      exact describes_named h1
    · rw [if_neg (Ne.symm he), if_neg he]
      exact .nil _ _
  case assignEngine e l =>
    cases h
    show Describes _ _ (if e = n then _ else _) (Engines.set w.engines e l n)
    unfold Engines.set
    by_cases he : n = e
    · subst he
      rw [if_pos rfl, if_pos rfl]
      exact describes_assigned _ _ _
    · rw [if_neg (Ne.symm he), if_neg he]
      exact .nil _ _
  all_goals
    simp only [World.step] at h
    split at h <;> cases h <;> exact .nil _ _

theorem edits_own {n : Nat} {op : Op} (h : op.isOwn = false) : edits n op = [] := by
  cases op <;> first | rfl | cases h

theorem step_describes {w w' : World} {op : Op} (h : w.step op = .ok w') (n : Nat) :
    w'.pf = w.pf ∧ ∃ l, w'.log = w.log ++ l ∧ Describes w.pf (w.engines n) (edits n op ++ l.filterMap (engineHears w n)) (w'.engines n) := by
  cases hown : op.isOwn with
  | true => exact ⟨own_pf hown h, [], by rw [own_log hown h, List.append_nil], by rw [List.filterMap_nil, List.append_nil]; exact own_engine hown n h⟩
  | false =>
    obtain ⟨hp, -, l, e1, e2⟩ := (engineFollows_frame n).step hown h
    exact ⟨hp, l, e1, by rw [edits_own hown]; exact e2⟩

theorem engineFollows_own {n : Nat} {w w' : World} {op : Op} (ho : op.isOwn = true) (hd : Discreet n op) (h : w.step op = .ok w') :
    EngineFollows n w w' := by
  refine ⟨own_pf ho h, ?_, [], by rw [own_log ho h, List.append_nil], ?_⟩
  · obtain ⟨hw, -⟩ := exactly_own ho hd h
    intro c
    have e : ∀ u : World, writes u c n = true ↔ WritesTo u c n := by
      intro u
      unfold writes WritesTo
      cases hu : u.consumers c <;> simp
    have := hw c
    rw [← e, ← e] at this
    exact Bool.eq_iff_iff.mpr this
  · have he : edits n op = [] := by
      cases op <;> first | rfl | skip
      case setName e name => exact if_neg (fun hh => hd.1 ⟨name, by rw [hh]⟩)
      case assignEngine e l => exact if_neg (fun hh => hd.2.1 ⟨l, by rw [hh]⟩)
    have := own_engine ho n h
    rw [he] at this
    exact this

theorem stepN_describes {P : Program} {depth n : Nat} (hP : ∀ u e, ∀ op ∈ P u e, Discreet n op) {w w' : World} {op : Op}
    (h : (World.stepN P (World.nested P depth) w op).Returns w') :
    w'.pf = w.pf ∧ ∃ l, w'.log = w.log ++ l ∧ Describes w.pf (w.engines n) (edits n op ++ l.filterMap (engineHears w n)) (w'.engines n) := by
  cases hown : op.isOwn with
  | true =>
    refine step_describes (op := op) ?_ n
    cases op <;> first | (cases hown; done) | exact returns_lift.mp h
  | false =>
    have hI : World.Steady (Discreet n) (EngineFollows n w) := (engineFollows_frame n).steady (fun _ _ _ => engineFollows_own) w
    have hop : Discreet n op := by
      refine ⟨?_, ?_, ?_⟩
      · rintro ⟨_, rfl⟩; cases hown
      · rintro ⟨_, rfl⟩; cases hown
      · rintro c e rfl; cases hown
    obtain ⟨hp, -, l, e1, e2⟩ := keeps_returns (World.stepN_steady hI (World.react_steady hI hP depth) w op hop ((engineFollows_frame n).refl w)) h
    exact ⟨hp, l, e1, by rw [edits_own hown]; exact e2⟩

theorem befalls_describes {S : World → Op → World → Prop} {n : Nat}
    (hS : ∀ {w u : World} {op : Op}, S w op u →
      u.pf = w.pf ∧ ∃ l, u.log = w.log ++ l ∧ Describes w.pf (w.engines n) (edits n op ++ l.filterMap (engineHears w n)) (u.engines n))
    {w w' : World} {ops : List Op} {es : List EngineEvent} (h : Befalls S n w ops w' es) : Describes w.pf (w.engines n) es (w'.engines n) := by
  induction h with
  | nil w => exact .nil _ _
  | cons h1 h2 _ ih =>
    obtain ⟨hp, l, e1, e2⟩ := hS h1
    have := List.append_cancel_left (h2.symm.trans e1)
    subst this
    rw [hp] at ih
    exact e2.trans ih

theorem befalls_of_went {S : World → Op → World → Prop} {n : Nat} (hS : ∀ {w u : World} {op : Op}, S w op u → ∃ l, u.log = w.log ++ l)
    {w w' : World} {ops : List Op} (h : Went S w ops w') : ∃ es, Befalls S n w ops w' es := by
  induction h with
  | nil w => exact ⟨[], .nil _⟩
  | cons h1 _ ih =>
    obtain ⟨l, hl⟩ := hS h1
    obtain ⟨es, he⟩ := ih
    exact ⟨_, .cons h1 hl he⟩

/-- C102. In every history that returns, each datum of an engine is what was said of it last: by an entry for it that a consumer was told that
writes to this engine, by the application naming the engine, which resets it, or by the application overwriting it. If nothing was said of it, it
is as it was. -/
theorem C102_history (w w' : World) (ops : List Op) (h : w.run ops = .ok w') (n : Nat) :
    ∃ es, Befalls (fun w op u => w.step op = .ok u) n w ops w' es ∧ Describes w.pf (w.engines n) es (w'.engines n) := by
  obtain ⟨es, he⟩ := befalls_of_went (n := n) (fun h => let ⟨_, l, e, _⟩ := step_describes h n; ⟨l, e⟩) (went_run h)
  exact ⟨es, he, befalls_describes (fun h => step_describes h n) he⟩

/-- C102, with callbacks that call back. They may call everything, except naming or overwriting this engine and changing where consumers
write. -/
theorem C102_nested (P : Program) (depth n : Nat) (hP : ∀ u e, ∀ op ∈ P u e, Discreet n op) (w w' : World) (ops : List Op)
    (h : (World.runN P depth w ops).Returns w') :
    ∃ es, Befalls (fun w op u => (World.stepN P (World.nested P depth) w op).Returns u) n w ops w' es ∧ Describes w.pf (w.engines n) es (w'.engines n) := by
  obtain ⟨es, he⟩ := befalls_of_went (n := n) (fun h => let ⟨_, l, e, _⟩ := stepN_describes hP h; ⟨l, e⟩) (went_runN h)
  exact ⟨es, he, befalls_describes (fun h => stepN_describes hP h) he⟩

/-- Engine consumer 1, which writes to engine 3, and to which parser 0 gives data. -/
def engineCase : Res World := do
  let t ← TextParser.construct (List.replicate 31 0xAA#8) (List.replicate 11 0xAA#8) (List.replicate 11 0xAA#8) (List.replicate 26 0xAA#8)
  World.run
    { pf := ⟨64⟩, station := {}, parsers := fun _ => StreamParser.construct t, consumers := fun _ => .loco LocoConsumer.construct,
      engines := fun _ => Locomotive.construct (List.replicate 9 0xAA#8), log := [] }
    [.setEndCallback 1 (some 7), .setEngine 1 (some 3), .begin_ 0 { tx := some 0 }, .parserStart 0 (some 1)]

/-- `uid=0x4006`, `typ=mfx` and `adresse=0x6` of `[lokomotive]`. -/
def engineTold : List Op :=
  [.parserStartStream 0, .parserAdd 0 { dlc := 6, b3 := 255 },
    .parserAdd 0 { dlc := 8, b0 := 0x5B, b1 := 0x6C, b2 := 0x6F, b3 := 0x6B, b4 := 0x6F, b5 := 0x6D, b6 := 0x6F, b7 := 0x74 },
    .parserAdd 0 { dlc := 8, b0 := 0x69, b1 := 0x76, b2 := 0x65, b3 := 0x5D, b4 := 0x0A, b5 := 0x20, b6 := 0x2E, b7 := 0x75 },
    .parserAdd 0 { dlc := 8, b0 := 0x69, b1 := 0x64, b2 := 0x3D, b3 := 0x30, b4 := 0x78, b5 := 0x34, b6 := 0x30, b7 := 0x30 },
    .parserAdd 0 { dlc := 8, b0 := 0x36, b1 := 0x0A, b2 := 0x20, b3 := 0x2E, b4 := 0x74, b5 := 0x79, b6 := 0x70, b7 := 0x3D },
    .parserAdd 0 { dlc := 8, b0 := 0x6D, b1 := 0x66, b2 := 0x78, b3 := 0x0A, b4 := 0x20, b5 := 0x2E, b6 := 0x61, b7 := 0x64 },
    .parserAdd 0 { dlc := 8, b0 := 0x72, b1 := 0x65, b2 := 0x73, b3 := 0x73, b4 := 0x65, b5 := 0x3D, b6 := 0x30, b7 := 0x78 },
    .parserAdd 0 { dlc := 8, b0 := 0x36, b1 := 0x0A, b2 := 0x0A, b3 := 0x0A, b4 := 0x0A, b5 := 0x0A, b6 := 0x0A, b7 := 0x0A }]

/-- `uid=0x77` of `[lokomotive]`, and the beginning of the key `adresse`. -/
def engineCut : List Op :=
  [.parserStartStream 0, .parserAdd 0 { dlc := 6, b3 := 255 },
    .parserAdd 0 { dlc := 8, b0 := 0x5B, b1 := 0x6C, b2 := 0x6F, b3 := 0x6B, b4 := 0x6F, b5 := 0x6D, b6 := 0x6F, b7 := 0x74 },
    .parserAdd 0 { dlc := 8, b0 := 0x69, b1 := 0x76, b2 := 0x65, b3 := 0x5D, b4 := 0x0A, b5 := 0x20, b6 := 0x2E, b7 := 0x75 },
    .parserAdd 0 { dlc := 8, b0 := 0x69, b1 := 0x64, b2 := 0x3D, b3 := 0x30, b4 := 0x78, b5 := 0x37, b6 := 0x37, b7 := 0x0A },
    .parserAdd 0 { dlc := 8, b0 := 0x20, b1 := 0x2E, b2 := 0x61, b3 := 0x64, b4 := 0x72, b5 := 0x65, b6 := 0x73, b7 := 0x73 },
    .parserReset 0]

/-- Uid, address and protocol of engine 3. -/
def engineSays (ops : List Op) : Option (U32 × U32 × List Byte) :=
  match engineCase with
  | .error _ => none
  | .ok w => match w.run ops with
    | .error _ => none
    | .ok u => some ((u.engines 3).data.uid, (u.engines 3).data.address.addr, text (u.engines 3).protocol)

/-- C102: the data that were told; data of two downloads, the second of which was aborted; the same with a name given in between; and data told
when the consumer writes to another engine. -/
example : engineSays engineTold = some (0x4006#32, 6#32, str "mfx") ∧
    engineSays (engineTold ++ [.parserReset 0, .parserStart 0 (some 1)] ++ engineCut) = some (0x77#32, 6#32, str "mfx") ∧
    engineSays (engineTold ++ [.parserReset 0, .parserStart 0 (some 1), .setName 3 (str "BR 12" ++ [0#8])] ++ engineCut) = some (0x77#32, 0#32, []) ∧
    engineSays (engineTold ++ [.parserReset 0, .parserStart 0 (some 1), .setEngine 1 (some 4)] ++ engineCut) = some (0x4006#32, 6#32, str "mfx") := by
  refine ⟨?_, ?_, ?_, ?_⟩ <;> decide +kernel

end RR32
