import Verif.Model.ListGetters
import Verif.Spec.Memory
import Verif.Proofs.NestedFrame
import Verif.Proofs.Nested
import Verif.Proofs.Compose
import Verif.Proofs.Numbers
import Verif.Props.EngineList

/-! # C100, C101: what an engine list remembers -/

set_option autoImplicit false

namespace RR32

open Spec

/-- What the events leave of a list. -/
structure Remembers (pf : Platform) (d : LocoListConsumer) (es : List ListEvent) (d' : LocoListConsumer) : Prop where
  complete : d'.streamComplete = (latest saysComplete es).or d.streamComplete
  offset : d'.streamOffset = (latest saysOffset es).or d.streamOffset
  zero : latest saysNumber es = some true → d'.numEnginesKnownByMaster = some 0#8
  number : latest saysNumber es = none → d'.numEnginesKnownByMaster = d.numEnginesKnownByMaster
  empty : latest saysEmpty es = some true → ∀ i ∈ d'.engineInfo, i.availability = .EMPTY
  table : latest saysEmpty es = none → d'.engineInfo = d.engineInfo
  set : (∃ e ∈ es, saysNumber e = some true) → d'.numEnginesKnownByMaster.isSome
  known : d.numEnginesKnownByMaster.isSome → d'.numEnginesKnownByMaster.isSome
  shows : ∀ names, TableShows d names → TableShows d' (es.foldl tableStep names)
  counted : ∀ t, latest saysCount es = some t → ∃ b, d'.numEnginesKnownByMaster = some b ∧ TakenFor pf t b
  uncounted : latest saysCount es = none → d'.numEnginesKnownByMaster = d.numEnginesKnownByMaster

theorem latest_append {ε α : Type} (f : ε → Option α) (a b : List ε) : latest f (a ++ b) = (latest f b).or (latest f a) := by
  unfold latest
  rw [List.filterMap_append, List.getLast?_append]

theorem Remembers.nil (pf : Platform) (d : LocoListConsumer) : Remembers pf d [] d :=
  ⟨rfl, rfl, fun h => (by cases h), fun _ => rfl, fun h => (by cases h), fun _ => rfl, fun ⟨_, h, _⟩ => (by cases h), fun h => h,
    fun _ h => h, fun _ h => (by cases h), fun _ => rfl⟩

theorem Remembers.trans {pf : Platform} {d e f : LocoListConsumer} {a b : List ListEvent} (h : Remembers pf d a e) (k : Remembers pf e b f) :
    Remembers pf d (a ++ b) f := by
  refine ⟨?_, ?_, ?_, ?_, ?_, ?_, ?_, fun hd => k.known (h.known hd), ?_, ?_, ?_⟩
  · rw [latest_append, k.complete, h.complete, Option.or_assoc]
  · rw [latest_append, k.offset, h.offset, Option.or_assoc]
  · rw [latest_append]
    cases hb : latest saysNumber b with
    | some x => intro hx; exact k.zero (by rw [hb]; exact hx)
    | none => intro hx; rw [k.number hb]; exact h.zero hx
  · rw [latest_append]
    cases hb : latest saysNumber b with
    | some x => intro hx; cases hx
    | none => intro hx; rw [k.number hb]; exact h.number hx
  · rw [latest_append]
    cases hb : latest saysEmpty b with
    | some x => intro hx; exact k.empty (by rw [hb]; exact hx)
    | none => intro hx; rw [k.table hb]; exact h.empty hx
  · rw [latest_append]
    cases hb : latest saysEmpty b with
    | some x => intro hx; cases hx
    | none => intro hx; rw [k.table hb]; exact h.table hx
  · rintro ⟨x, hx, he⟩
    rcases List.mem_append.mp hx with hx | hx
    · exact k.known (h.set ⟨x, hx, he⟩)
    · exact k.set ⟨x, hx, he⟩
  · intro names hn
    rw [List.foldl_append]
    exact k.shows _ (h.shows _ hn)
  · intro t
    rw [latest_append]
    cases hb : latest saysCount b with
    | some x => intro hx; exact k.counted t (by rw [hb]; exact hx)
    | none => intro hx; rw [k.uncounted hb]; exact h.counted t hx
  · rw [latest_append]
    cases hb : latest saysCount b with
    | some x => intro hx; cases hx
    | none => intro hx; rw [k.uncounted hb]; exact h.uncounted hx

theorem clearTable_empty (d : LocoListConsumer) : ∀ i ∈ d.clearTable.engineInfo, i.availability = .EMPTY := by
  intro i hi
  obtain ⟨j, -, rfl⟩ := List.mem_map.mp hi
  rfl

theorem tableShows_iff (d : LocoListConsumer) (names : List (List Byte)) : TableShows d names ↔ Shows d names := by
  have : slots d = d.engineInfo.map shown := by
    unfold slots LocoListConsumer.getEngineInfos
    refine List.map_congr_left (fun i _ => ?_)
    unfold ShortInfo.isNameKnown shown
    by_cases h : i.availability = .EMPTY <;> simp [h]
  unfold TableShows Shows
  rw [this]

theorem shows_wiped {d : LocoListConsumer} {names : List (List Byte)} (h : TableShows d names) : TableShows d.clearTable [] := by
  obtain ⟨h1, h2⟩ := h
  rw [tableShows_iff]
  refine shows_clear d ?_
  have hl := congrArg List.length h2
  simp only [slots, LocoListConsumer.getEngineInfos, List.length_map, List.length_append, List.length_replicate] at hl
  omega

theorem takenFor_zero (pf : Platform) : TakenFor pf (str "0") 0#8 := by
  intro n hn _
  have := digits_numeral (by decide) hn [0#8] 0
  rw [digits_stop, show digits 10 0 (str "0" ++ [0#8]) = .ok 0 from rfl] at this
  have : n = 0 := by have := Except.ok.inj this; omega
  subst this
  rw [Nat.zero_min]

theorem remembers_aborted (pf : Platform) (d : LocoListConsumer) : Remembers pf d [.aborted] d.reset :=
  ⟨rfl, rfl, fun _ => rfl, fun h => (by cases h), fun _ => clearTable_empty d, fun h => (by cases h), fun _ => rfl, fun _ => rfl,
    fun _ h => shows_wiped h, fun _ h => (by cases h; exact ⟨_, rfl, takenFor_zero pf⟩), fun h => (by cases h)⟩

theorem remembers_reset (pf : Platform) (d : LocoListConsumer) : Remembers pf d [.reset] d.reset :=
  ⟨rfl, rfl, fun _ => rfl, fun h => (by cases h), fun _ => clearTable_empty d, fun h => (by cases h), fun _ => rfl, fun _ => rfl,
    fun _ h => shows_wiped h, fun _ h => (by cases h; exact ⟨_, rfl, takenFor_zero pf⟩), fun h => (by cases h)⟩

theorem remembers_clear (pf : Platform) (d : LocoListConsumer) : Remembers pf d [.clear] d.clearTable :=
  ⟨rfl, rfl, fun h => (by cases h), fun _ => rfl, fun _ => clearTable_empty d, fun h => (by cases h),
    fun ⟨_, h, k⟩ => (by rw [List.mem_singleton.mp h] at k; cases k), fun h => h, fun _ h => shows_wiped h, fun _ h => (by cases h), fun _ => rfl⟩

theorem remembers_offset (pf : Platform) (d : LocoListConsumer) (b : Byte) : Remembers pf d [.offset b] (d.setStreamOffset b) :=
  ⟨rfl, rfl, fun h => (by cases h), fun _ => rfl, fun h => (by cases h), fun _ => rfl,
    fun ⟨_, h, k⟩ => (by rw [List.mem_singleton.mp h] at k; cases k), fun h => h, fun _ h => h, fun _ h => (by cases h), fun _ => rfl⟩

theorem remembers_complete (pf : Platform) (d : LocoListConsumer) : Remembers pf d [.complete] { d with streamComplete := some true } :=
  ⟨rfl, rfl, fun h => (by cases h), fun _ => rfl, fun h => (by cases h), fun _ => rfl,
    fun ⟨_, h, k⟩ => (by rw [List.mem_singleton.mp h] at k; cases k), fun h => h, fun _ h => h, fun _ h => (by cases h), fun _ => rfl⟩

theorem strncmpEq_says {n : Nat} {a b : List Byte} {r : Bool} (h : strncmpEq n a b = .ok r) : r = decide ((text a).take n = (text b).take n) := by
  induction n generalizing a b with
  | zero => cases h; simp
  | succ n ih =>
    cases a with
    | nil => cases h
    | cons x a =>
      cases b with
      | nil => cases h
      | cons y b =>
        simp only [strncmpEq] at h
        by_cases hxy : x = y
        · subst hxy
          rw [if_neg (by simp)] at h
          by_cases h0 : x = 0#8
          · rw [if_pos h0] at h
            cases h
            simp [text, h0]
          · rw [if_neg h0] at h
            have := ih h
            rw [this, decide_eq_decide]
            simp [text, h0]
        · rw [if_pos hxy] at h
          cases h
          symm
          rw [decide_eq_false_iff_not]
          intro he
          by_cases hx : x = 0#8 <;> by_cases hy : y = 0#8
          · exact hxy (hx.trans hy.symm)
          · simp [text, hx, hy] at he
          · simp [text, hx, hy] at he
          · simp [text, hx, hy] at he
            exact hxy he.1

theorem strncmp_passes {b : BufferManager} {e : List Byte} {r : Bool} (he : NoNul e) (h : b.strncmp (e ++ [0#8]) = .ok r) : r = passes e b := by
  have := strncmpEq_says (show strncmpEq b.len b.mem (e ++ [0#8]) = .ok r from h)
  rw [text_lit e he] at this
  exact this

theorem strtol10_taken {pf : Platform} {m : List Byte} {v : Int} (h : strtol10 pf m = .ok v) : TakenFor pf (text m) (BitVec.ofInt 8 v) := by
  intro n hn hne
  by_cases ht : Terminated m
  · rw [strtol10_numeral pf m (text m) n ht rfl hn hne] at h
    cases h
    have h1 : 0 < 2 ^ (pf.longBits - 1) := Nat.pow_pos (by decide)
    generalize 2 ^ (pf.longBits - 1) = k at *
    by_cases hk : k ≤ n
    · rw [if_pos hk, show ((k : Nat) : Int) - 1 = ((k - 1 : Nat) : Int) by omega, Nat.min_eq_right (by omega)]
      rfl
    · rw [if_neg hk, Nat.min_eq_left (by omega)]
      rfl
  · exfalso
    have hm : text m = m := text_of_noNul m (fun c hc hz => ht (show 0#8 ∈ m from hz ▸ hc))
    rw [hm] at hn hne
    cases m with
    | nil => exact hne rfl
    | cons c l =>
      obtain ⟨d, hd, hc⟩ := numeral_digit (by decide) hn c (List.mem_cons_self ..)
      obtain ⟨p1, p2, p3, -⟩ := isDigit_plain hd hc
      have hdig : digits 10 0 (c :: l) = .error .oobRead := by
        have := digits_numeral (by decide) hn [] 0
        rw [List.append_nil] at this
        rw [this]
        rfl
      simp only [strtol10, bind, Except.bind] at h
      rw [skipSpace_plain _ _ p1] at h
      simp only at h
      rw [takeSign_plain _ _ p2 p3] at h
      simp only at h
      rw [hdig] at h
      cases h

theorem shows_named {d : LocoListConsumer} {v : BufferManager} {i : Nat} {info : ShortInfo} (hf : d.findFirstFreeEntry = some i)
    {c : List Byte} (hc : cstr v.mem = .ok c) (h : (d.engineInfo.getD i ShortInfo.construct).setName v.mem = .ok info)
    {names : List (List Byte)} (hs : TableShows d names) :
    TableShows { d with engineInfo := d.engineInfo.set i info } ((names ++ [(text v.mem).take 32]).take 2) := by
  rw [tableShows_iff] at hs ⊢
  rw [findFirst_shows hs] at hf
  have ht : Terminated v.mem := ((cstr_iff v.mem c).mp hc).1
  rw [shortInfo_setName _ _ (terminated_readable ht 32)] at h
  cases h
  obtain ⟨hn1, hn2⟩ := hs
  by_cases h2 : names.length = 2
  · rw [if_pos h2] at hf
    cases hf
  · rw [if_neg h2] at hf
    cases hf
    refine ⟨by simp, ?_⟩
    have hshow : shown { availability := .NAME_KNOWN, name := (text v.mem).take 32 ++ List.replicate (32 - (text v.mem).length) 0#8 ++ [0#8] } =
        some ((text v.mem).take 32) := by
      rw [shown, if_neg (show ¬Availability.NAME_KNOWN = .EMPTY by decide), (name_memory v.mem).2.2]
    rw [List.map_set, hn2, hshow, List.take_of_length_le (l := names ++ _) (by rw [List.length_append, List.length_singleton]; omega)]
    match names, hn1, h2 with
    | [], _, _ => rfl
    | [x], _, _ => rfl
    | [x, y], _, h2 => exact absurd rfl h2

theorem remembers_entry {pf : Platform} {d d' : LocoListConsumer} {s k v : BufferManager} (h : d.consumeConfigData pf s k v = .ok d') :
    Remembers pf d [.entry s k v] d' := by
  obtain ⟨-, -, -, -, n5, n6, n7⟩ := noNul_names
  have unnamed : passes (str "loknamen") s = false → ∀ names, TableShows d names → TableShows d ([ListEvent.entry s k v].foldl tableStep names) := by
    intro hp names hn
    show TableShows d ((names ++ (toldName s v).toList).take 2)
    rw [toldName, hp, if_neg (by decide), Option.toList_none, List.append_nil, List.take_of_length_le hn.1]
    exact hn
  have key : d'.streamComplete = d.streamComplete ∧ d'.streamOffset = d.streamOffset ∧
      (d.numEnginesKnownByMaster.isSome → d'.numEnginesKnownByMaster.isSome) ∧
      (∀ names, TableShows d names → TableShows d' ([ListEvent.entry s k v].foldl tableStep names)) ∧
      (∀ t, toldNumber s k v = some t → ∃ b, d'.numEnginesKnownByMaster = some b ∧ TakenFor pf t b) ∧
      (toldNumber s k v = none → d'.numEnginesKnownByMaster = d.numEnginesKnownByMaster) := by
    unfold LocoListConsumer.consumeConfigData at h
    obtain ⟨b1, hb1, h⟩ := bind_ok h
    have p1 := strncmp_passes n5 hb1
    cases b1 with
    | true =>
      have hno : toldNumber s k v = none := by rw [toldNumber, ← p1]; rfl
      simp only [if_true] at h
      cases hf : d.findFirstFreeEntry with
      | none =>
        rw [hf] at h
        cases h
        refine ⟨rfl, rfl, fun h => h, fun names hn => ?_, fun t ht => (by rw [hno] at ht; cases ht), fun _ => rfl⟩
        have hlen : names.length = 2 := by
          have := findFirst_shows ((tableShows_iff _ _).mp hn)
          rw [hf] at this
          by_cases h2 : names.length = 2
          · exact h2
          · rw [if_neg h2] at this; cases this
        show TableShows d ((names ++ (toldName s v).toList).take 2)
        rw [List.take_append_of_le_length (by omega), List.take_of_length_le (by omega)]
        exact hn
      | some i =>
        rw [hf] at h
        obtain ⟨c, hc, h⟩ := bind_ok h
        obtain ⟨info, hi, h⟩ := bind_ok h
        cases h
        refine ⟨rfl, rfl, fun h => h, fun names hn => ?_, fun t ht => (by rw [hno] at ht; cases ht), fun _ => rfl⟩
        show TableShows _ ((names ++ (toldName s v).toList).take 2)
        rw [toldName, ← p1, if_pos rfl]
        exact shows_named hf hc hi hn
    | false =>
      simp only [Bool.false_eq_true, if_false] at h
      obtain ⟨b2, hb2, h⟩ := bind_ok h
      have p2 := strncmp_passes n6 hb2
      cases b2 with
      | true =>
        simp only [if_true] at h
        obtain ⟨b3, hb3, h⟩ := bind_ok h
        have p3 := strncmp_passes n7 hb3
        cases b3 with
        | true =>
          simp only [if_true] at h
          obtain ⟨b, hb, h⟩ := bind_ok h
          obtain ⟨x, hx, hb⟩ := bind_ok hb
          cases hb
          cases h
          refine ⟨rfl, rfl, fun _ => rfl, unnamed p1.symm, fun t ht => ?_, fun ht => ?_⟩
          · rw [toldNumber, ← p1, ← p2, ← p3] at ht
            cases ht
            exact ⟨_, rfl, strtol10_taken hx⟩
          · rw [toldNumber, ← p1, ← p2, ← p3] at ht
            cases ht
        | false =>
          cases h
          have hno : toldNumber s k v = none := by rw [toldNumber, ← p1, ← p2, ← p3]; rfl
          exact ⟨rfl, rfl, fun h => h, unnamed p1.symm, fun t ht => (by rw [hno] at ht; cases ht), fun _ => rfl⟩
      | false =>
        simp only [Bool.false_eq_true, if_false] at h
        obtain ⟨_, -, h⟩ := bind_ok h
        cases h
        have hno : toldNumber s k v = none := by rw [toldNumber, ← p1, ← p2]; rfl
        exact ⟨rfl, rfl, fun h => h, unnamed p1.symm, fun t ht => (by rw [hno] at ht; cases ht), fun _ => rfl⟩
  have hl : latest saysCount [.entry s k v] = toldNumber s k v := by
    simp only [latest, List.filterMap_cons, List.filterMap_nil, saysCount]
    cases toldNumber s k v <;> rfl
  exact ⟨key.1, key.2.1, fun h => (by cases h), fun h => (by cases h), fun h => (by cases h), fun h => (by cases h),
    fun ⟨_, h, k⟩ => (by rw [List.mem_singleton.mp h] at k; cases k), key.2.2.1, key.2.2.2.1, fun t ht => key.2.2.2.2.1 t (hl ▸ ht), fun ht => key.2.2.2.2.2 (hl ▸ ht)⟩

/-- A call leaves the list as what it is told says. -/
def ListFollows (c : Nat) (w w' : World) : Prop :=
  w'.pf = w.pf ∧ ∃ l, w'.log = w.log ++ l ∧ ∀ d, w.consumers c = .list d → ∃ d', w'.consumers c = .list d' ∧ Remembers w.pf d (l.filterMap (listHears c)) d'

theorem listFollows_same {c : Nat} {w w' : World} (l : List LogEntry) (hl : w'.log = w.log ++ l) (hc : w'.consumers = w.consumers) (hp : w'.pf = w.pf)
    (hn : ∀ d, w.consumers c = .list d → l.filterMap (listHears c) = []) : ListFollows c w w' :=
  ⟨hp, l, hl, fun d h => ⟨d, by rw [hc, h], by rw [hn d h]; exact .nil _ d⟩⟩

theorem hears_ends {α : Type} (c x : Nat) (f : α → Seen) (es : List (EndCall α)) : (World.endLog x f es).filterMap (listHears c) = [] := by
  unfold World.endLog
  rw [List.filterMap_map, List.filterMap_eq_nil_iff]
  intro a _
  rfl

theorem hears_other {c : Nat} {k : ConsumerCall} (h : k.consumer ≠ c) : listHears c (.consumer k) = none := by
  cases k
  exact if_neg h

theorem listFollows_list (c : Nat) {w : World} {k : ConsumerCall} {d d' : LocoListConsumer} (h : w.consumers k.consumer = .list d) {α : Type} (f : α → Seen)
    (es : List (EndCall α)) (e : ListEvent) (he : listHears k.consumer (.consumer k) = some e) (hr : Remembers w.pf d [e] d') :
    ListFollows c w (((w.logAll [.consumer k]).setConsumer k.consumer (.list d')).logAll (World.endLog k.consumer f es)) := by
  refine ⟨rfl, [.consumer k] ++ World.endLog k.consumer f es, by simp [World.logAll, World.setConsumer], fun x hx => ?_⟩
  rw [List.filterMap_append, hears_ends, List.append_nil]
  by_cases hc : c = k.consumer
  · subst hc
    rw [h] at hx
    cases hx
    refine ⟨d', by simp [World.logAll, World.setConsumer], ?_⟩
    rw [show [LogEntry.consumer k].filterMap (listHears k.consumer) = [e] by simp [he]]
    exact hr
  · refine ⟨x, by simp [World.logAll, World.setConsumer, hc, hx], ?_⟩
    rw [show [LogEntry.consumer k].filterMap (listHears c) = [] by simp [hears_other (Ne.symm hc)]]
    exact .nil _ x

theorem listFollows_frame (y : Nat) : World.Frame (ListFollows y) where
  refl w := listFollows_same [] (by simp) rfl rfl (fun _ _ => rfl)
  trans := by
    rintro a b c ⟨p1, l1, e1, h1⟩ ⟨p2, l2, e2, h2⟩
    refine ⟨p2.trans p1, l1 ++ l2, by rw [e2, e1, List.append_assoc], fun d hd => ?_⟩
    obtain ⟨d1, g1, r1⟩ := h1 d hd
    obtain ⟨d2, g2, r2⟩ := h2 d1 g1
    rw [p1] at r2
    exact ⟨d2, g2, by rw [List.filterMap_append]; exact r1.trans r2⟩
  parser w n p := listFollows_same [] (by simp [World.setParser]) rfl rfl (fun _ _ => rfl)
  station w s := listFollows_same [] (by simp) rfl rfl (fun _ _ => rfl)
  call w c := listFollows_same [.call c] rfl rfl rfl (fun _ _ => rfl)
  consumer := by
    intro w w' c h
    have other : ∀ {x : Consumer}, w.consumers c.consumer = x → (∀ d, x ≠ .list d) → ∀ d, w.consumers y = .list d → listHears y (.consumer c) = none := by
      intro x hx hn d hy
      refine hears_other (fun hh => hn d ?_)
      rw [← hx, hh, hy]
    rcases World.callConsumer_cases h with ⟨l, s, k, v, es, h1, h2, h3, rfl⟩ | ⟨l, es, es', h1, h2, h3, rfl⟩ | ⟨l, es', h1, h2, h3, rfl⟩ |
      ⟨l, s, k, v, l', h1, h2, h3, rfl⟩ | ⟨l, l', es', h1, h2, h3, rfl⟩ | ⟨l, l', es', h1, h2, h3, rfl⟩ | ⟨h1, rfl⟩
    · refine listFollows_same [.consumer c] rfl rfl rfl (fun d hy => ?_)
      simp [other h1 (fun d hd => by cases hd) d hy]
    · refine listFollows_same ([.consumer c] ++ World.endLog c.consumer .engine es') (by simp [World.logAll]) rfl rfl (fun d hy => ?_)
      rw [List.filterMap_append, hears_ends]
      simp [other h1 (fun d hd => by cases hd) d hy]
    · refine listFollows_same ([.consumer c] ++ World.endLog c.consumer (fun _ => .nothing) es') (by simp [World.logAll]) rfl rfl (fun d hy => ?_)
      rw [List.filterMap_append, hears_ends]
      simp [other h1 (fun d hd => by cases hd) d hy]
    · have := listFollows_list y h1 (α := Unit) (fun _ => .nothing) [] (.entry s k v) (by cases c; cases h2; exact if_pos rfl) (remembers_entry h3)
      simpa [World.endLog, World.logAll] using this
    · refine listFollows_list y h1 .list es' .complete (by cases c; cases h2; exact if_pos rfl) ?_
      obtain ⟨_, -, h3⟩ := bind_ok h3
      cases h3
      exact remembers_complete _ l
    · refine listFollows_list y h1 .list es' .aborted (by cases c; cases h2; exact if_pos rfl) ?_
      obtain ⟨_, -, h3⟩ := bind_ok h3
      cases h3
      exact remembers_aborted _ l
    · refine listFollows_same [.consumer c] rfl rfl rfl (fun d hy => ?_)
      simp [other h1 (fun d hd => by cases hd) d hy]

theorem step_remembers {w w' : World} {op : Op} (h : w.step op = .ok w') (c : Nat) (d : LocoListConsumer) (hd : w.consumers c = .list d) :
    ∃ l d', w'.log = w.log ++ l ∧ w'.consumers c = .list d' ∧ Remembers w.pf d (ordered c op ++ l.filterMap (listHears c)) d' := by
  cases hown : op.isOwn with
  | false =>
    obtain ⟨-, l, e1, e2⟩ := (listFollows_frame c).step hown h
    obtain ⟨d', g1, g2⟩ := e2 d hd
    refine ⟨l, d', e1, g1, ?_⟩
    rw [show ordered c op = [] by cases op <;> first | rfl | cases hown]
    exact g2
  | true =>
    have same : w' = w → ordered c op = [] → ∃ l d', w'.log = w.log ++ l ∧ w'.consumers c = .list d' ∧ Remembers w.pf d (ordered c op ++ l.filterMap (listHears c)) d' := by
      rintro rfl he
      exact ⟨[], d, by simp, hd, by rw [he]; exact .nil _ d⟩
    have set : ∀ {x : Nat} {l l' : LocoListConsumer} {es : List ListEvent}, w.consumers x = .list l → w' = w.setConsumer x (.list l') → Remembers w.pf l es l' →
        (ordered c op = if x = c then es else []) →
        ∃ l d', w'.log = w.log ++ l ∧ w'.consumers c = .list d' ∧ Remembers w.pf d (ordered c op ++ l.filterMap (listHears c)) d' := by
      rintro x l l' es hx rfl hr he
      by_cases hxc : x = c
      · subst hxc
        rw [hd] at hx
        cases hx
        exact ⟨[], l', by simp [World.setConsumer], by simp [World.setConsumer], by rw [he, if_pos rfl, List.filterMap_nil, List.append_nil]; exact hr⟩
      · exact ⟨[], d, by simp [World.setConsumer], by simp [World.setConsumer, Ne.symm hxc, hd], by rw [he, if_neg hxc]; exact .nil _ d⟩
    cases op <;> first | (cases hown; done) | skip
    case setName e name =>
      obtain ⟨l, h1, h⟩ := bind_ok h
      cases h
      exact ⟨[], d, by simp, hd, .nil _ d⟩
    case assignEngine e l =>
      cases h
      exact ⟨[], d, by simp, hd, .nil _ d⟩
    case setEngine x e =>
      simp only [World.step] at h
      split at h
      · next l hx =>
        cases h
        have hxc : c ≠ x := by rintro rfl; rw [hd] at hx; cases hx
        exact ⟨[], d, by simp [World.setConsumer], by simp [World.setConsumer, hxc, hd], .nil _ d⟩
      · cases h; exact same rfl rfl
    case setEndCallback x cb =>
      simp only [World.step] at h
      split at h
      · next l hx =>
        cases h
        have hxc : c ≠ x := by rintro rfl; rw [hd] at hx; cases hx
        exact ⟨[], d, by simp [World.setConsumer], by simp [World.setConsumer, hxc, hd], .nil _ d⟩
      · next l hx =>
        cases h
        exact set (es := []) hx rfl ⟨rfl, rfl, fun h => (by cases h), fun _ => rfl, fun h => (by cases h), fun _ => rfl, fun ⟨_, h, _⟩ => (by cases h), fun h => h, fun _ h => h, fun _ h => (by cases h), fun _ => rfl⟩ (by simp [ordered])
      · cases h; exact same rfl rfl
    all_goals
      simp only [World.step] at h
      split at h
      · next l hx =>
        cases h
        first
        | exact set hx rfl (remembers_offset _ l _) rfl
        | exact set hx rfl (remembers_clear _ l) rfl
        | exact set hx rfl (remembers_reset _ l) rfl
      · next hx =>
        cases h
        refine same rfl (if_neg ?_)
        rintro rfl
        exact hx d hd

theorem own_log {w w' : World} {op : Op} (ho : op.isOwn = true) (h : w.step op = .ok w') : w'.log = w.log := by
  cases op <;> first | (cases ho; done) | skip
  case setName e name => obtain ⟨l, h1, h⟩ := bind_ok h; cases h; rfl
  case assignEngine e l => cases h; rfl
  all_goals
    simp only [World.step] at h
    split at h <;> cases h <;> rfl

theorem own_pf {w w' : World} {op : Op} (ho : op.isOwn = true) (h : w.step op = .ok w') : w'.pf = w.pf := by
  cases op <;> first | (cases ho; done) | skip
  case setName e name => obtain ⟨l, h1, h⟩ := bind_ok h; cases h; rfl
  case assignEngine e l => cases h; rfl
  all_goals
    simp only [World.step] at h
    split at h <;> cases h <;> rfl

theorem step_pf {w w' : World} {op : Op} (h : w.step op = .ok w') : w'.pf = w.pf := by
  cases hown : op.isOwn with
  | true => exact own_pf hown h
  | false => exact ((listFollows_frame 0).step hown h).1

theorem listFollows_own {c : Nat} {u v : World} {o : Op} (hw : o.isOwn = true) (ho : ordered c o = []) (hs : u.step o = .ok v) : ListFollows c u v := by
  cases hu : u.consumers c with
  | list x =>
    obtain ⟨l, d', e1, e2, e3⟩ := step_remembers hs c x hu
    rw [ho] at e3
    exact ⟨own_pf hw hs, l, e1, fun y hy => by rw [hu] at hy; cases hy; exact ⟨d', e2, e3⟩⟩
  | app | loco _ =>
    exact ⟨own_pf hw hs, [], by rw [own_log hw hs, List.append_nil], fun y hy => by rw [hu] at hy; cases hy⟩

/-- With callbacks that call back, but do not set the offset of the list, clear it or reset it. -/
theorem stepN_remembers {P : Program} {depth : Nat} {w w' : World} {op : Op} (c : Nat) (hP : ∀ u e, ∀ op ∈ P u e, ordered c op = [])
    (h : (World.stepN P (World.nested P depth) w op).Returns w') (d : LocoListConsumer) (hd : w.consumers c = .list d) :
    w'.pf = w.pf ∧ ∃ l d', w'.log = w.log ++ l ∧ w'.consumers c = .list d' ∧ Remembers w.pf d (ordered c op ++ l.filterMap (listHears c)) d' := by
  cases hown : op.isOwn with
  | true =>
    have hs : w.step op = .ok w' := by cases op <;> first | (cases hown; done) | exact returns_lift.mp h
    exact ⟨step_pf hs, step_remembers hs c d hd⟩
  | false =>
    have hI : World.Steady (fun op => ordered c op = []) (ListFollows c w) := (listFollows_frame c).steady (fun u v o hw ho hs => listFollows_own hw ho hs) w
    have hop : ordered c op = [] := by cases op <;> first | rfl | cases hown
    obtain ⟨hp, l, e1, e2⟩ := keeps_returns (World.stepN_steady hI (World.react_steady hI hP depth) w op hop ((listFollows_frame c).refl w)) h
    obtain ⟨d', g1, g2⟩ := e2 d hd
    exact ⟨hp, l, d', e1, g1, by rw [hop]; exact g2⟩

theorem happens_remembers {S : World → Op → World → Prop} {c : Nat}
    (hS : ∀ {w u : World} {op : Op}, S w op u → ∀ d, w.consumers c = .list d →
      u.pf = w.pf ∧ ∃ l d', u.log = w.log ++ l ∧ u.consumers c = .list d' ∧ Remembers w.pf d (ordered c op ++ l.filterMap (listHears c)) d')
    {w w' : World} {ops : List Op} {es : List ListEvent} (h : Happens S c w ops w' es) (d d' : LocoListConsumer)
    (hd : w.consumers c = .list d) (hd' : w'.consumers c = .list d') : Remembers w.pf d es d' := by
  induction h generalizing d with
  | nil w =>
    rw [hd] at hd'
    cases hd'
    exact .nil _ _
  | cons h1 h2 _ ih =>
    obtain ⟨hp, l, d1, e1, e2, e3⟩ := hS h1 d hd
    have := List.append_cancel_left (h2.symm.trans e1)
    subst this
    have hr := ih d1 e2 hd'
    rw [hp] at hr
    exact e3.trans hr

theorem Remembers.answers {pf : Platform} {d d' : LocoListConsumer} {es : List ListEvent} (r : Remembers pf d es d') : Answers d es d' := by
  refine ⟨fun b hb => ?_, fun hb => ?_, fun b hb => ?_, fun hb => ?_, fun hb => ?_, fun hb => ?_, fun hb i hi => ?_, r.table⟩
  · unfold LocoListConsumer.isStreamComplete; rw [r.complete, hb]; rfl
  · unfold LocoListConsumer.isStreamComplete; rw [r.complete, hb]; rfl
  · unfold LocoListConsumer.getStreamOffset; rw [r.offset, hb]; rfl
  · unfold LocoListConsumer.getStreamOffset; rw [r.offset, hb]; rfl
  · unfold LocoListConsumer.getNumEnginesKnownByMaster; rw [r.zero hb]; rfl
  · unfold LocoListConsumer.getNumEnginesKnownByMaster; rw [r.number hb]
  · unfold ShortInfo.isNameKnown
    rw [r.empty hb i hi]
    rfl

theorem Remembers.contains {pf : Platform} {d d' : LocoListConsumer} {es : List ListEvent} (r : Remembers pf d es d') : Contains pf d es d' := by
  refine ⟨r.shows, fun t ht => ?_, fun ht => ?_⟩
  · obtain ⟨b, h1, h2⟩ := r.counted t ht
    exact ⟨b, by unfold LocoListConsumer.getNumEnginesKnownByMaster; rw [h1]; rfl, h2⟩
  · unfold LocoListConsumer.getNumEnginesKnownByMaster; rw [r.uncounted ht]

/-- C100. In every history that returns a list stays a list, and what happens to it determines what it says: of completeness and of the
offset what the last event said that says something of it; the number is zero and the table is empty if the last event that matters set them
so; and all are as they were if no event matters. -/
theorem C100_history (w w' : World) (ops : List Op) (h : w.run ops = .ok w') (c : Nat) (d : LocoListConsumer) (hd : w.consumers c = .list d) :
    ∃ es d', Happens (fun w op u => w.step op = .ok u) c w ops w' es ∧ w'.consumers c = .list d' ∧ Answers d es d' := by
  suffices ∃ es d', Happens (fun w op u => w.step op = .ok u) c w ops w' es ∧ w'.consumers c = .list d' by
    obtain ⟨es, d', h1, h2⟩ := this
    exact ⟨es, d', h1, h2, (happens_remembers (fun h d hd => ⟨step_pf h, step_remembers h c d hd⟩) h1 d d' hd h2).answers⟩
  induction ops generalizing w d with
  | nil => cases h; exact ⟨[], d, .nil _, hd⟩
  | cons op ops ih =>
    rw [World.run_cons] at h
    obtain ⟨v, h1, h2⟩ := bind_ok h
    obtain ⟨l, d1, e1, e2, e3⟩ := step_remembers h1 c d hd
    obtain ⟨es, d', g1, g2⟩ := ih v h2 d1 e2
    exact ⟨_, d', .cons h1 e1 g1, g2⟩

/-- C100, with callbacks that call back. They may call everything except setting the offset of this list, clearing it and resetting it. -/
theorem C100_nested (P : Program) (depth : Nat) (c : Nat) (hP : ∀ u e, ∀ op ∈ P u e, ordered c op = []) (w w' : World) (ops : List Op)
    (h : (World.runN P depth w ops).Returns w') (d : LocoListConsumer) (hd : w.consumers c = .list d) :
    ∃ es d', Happens (fun w op u => (World.stepN P (World.nested P depth) w op).Returns u) c w ops w' es ∧ w'.consumers c = .list d' ∧ Answers d es d' := by
  suffices ∃ es d', Happens (fun w op u => (World.stepN P (World.nested P depth) w op).Returns u) c w ops w' es ∧ w'.consumers c = .list d' by
    obtain ⟨es, d', h1, h2⟩ := this
    exact ⟨es, d', h1, h2, (happens_remembers (fun h d hd => stepN_remembers c hP h d hd) h1 d d' hd h2).answers⟩
  induction ops generalizing w d with
  | nil => cases World.returns_pure.mp h; exact ⟨[], d, .nil _, hd⟩
  | cons op ops ih =>
    obtain ⟨v, h1, h2⟩ := returns_bind.mp h
    obtain ⟨-, l, d1, e1, e2, e3⟩ := stepN_remembers c hP h1 d hd
    obtain ⟨es, d', g1, g2⟩ := ih v h2 d1 e2
    exact ⟨_, d', .cons h1 e1 g1, g2⟩

/-- C101. In every history that returns: whatever happens to a list, its table shows the first two names it was told since it was emptied
the last time, after those it had if it was not emptied, in that order; and the number is the one it was told last since it was set to zero. -/
theorem C101_history (w w' : World) (ops : List Op) (h : w.run ops = .ok w') (c : Nat) (d : LocoListConsumer) (hd : w.consumers c = .list d) :
    ∃ es d', Happens (fun w op u => w.step op = .ok u) c w ops w' es ∧ w'.consumers c = .list d' ∧ Contains w.pf d es d' := by
  obtain ⟨es, d', h1, h2, -⟩ := C100_history w w' ops h c d hd
  exact ⟨es, d', h1, h2, (happens_remembers (fun h d hd => ⟨step_pf h, step_remembers h c d hd⟩) h1 d d' hd h2).contains⟩

/-- C101, with callbacks that call back. They may call everything except setting the offset of this list, clearing it and resetting it. -/
theorem C101_nested (P : Program) (depth : Nat) (c : Nat) (hP : ∀ u e, ∀ op ∈ P u e, ordered c op = []) (w w' : World) (ops : List Op)
    (h : (World.runN P depth w ops).Returns w') (d : LocoListConsumer) (hd : w.consumers c = .list d) :
    ∃ es d', Happens (fun w op u => (World.stepN P (World.nested P depth) w op).Returns u) c w ops w' es ∧ w'.consumers c = .list d' ∧ Contains w.pf d es d' := by
  obtain ⟨es, d', h1, h2, -⟩ := C100_nested P depth c hP w w' ops h d hd
  exact ⟨es, d', h1, h2, (happens_remembers (fun h d hd => stepN_remembers c hP h d hd) h1 d d' hd h2).contains⟩

/-- C101: a new list shows no names. -/
theorem C101_new : TableShows .construct [] := ⟨by decide, by decide⟩

/-- What is in the table after some events: the names told since it was emptied the last time, as many as there is room for. -/
theorem C101_since (names : List (List Byte)) (before after : List ListEvent) (e : ListEvent) (he : e = .aborted ∨ e = .reset ∨ e = .clear)
    (ha : ∀ x ∈ after, x ≠ .aborted ∧ x ≠ .reset ∧ x ≠ .clear) :
    (before ++ e :: after).foldl tableStep names =
      (after.filterMap saysName).take 2 := by
  rw [List.foldl_append, List.foldl_cons, show tableStep _ e = [] by rcases he with rfl | rfl | rfl <;> rfl]
  suffices ∀ ns : List (List Byte), after.foldl tableStep (ns.take 2) = (ns ++ after.filterMap saysName).take 2 from this []
  induction after with
  | nil => intro ns; simp
  | cons x after ih =>
    intro ns
    have ih := ih (fun y hy => ha y (List.mem_cons_of_mem _ hy))
    obtain ⟨h1, h2, h3⟩ := ha x (List.mem_cons_self ..)
    rw [List.foldl_cons]
    cases x with
    | aborted => exact absurd rfl h1
    | reset => exact absurd rfl h2
    | clear => exact absurd rfl h3
    | complete | offset _ => rw [List.filterMap_cons_none rfl]; exact ih ns
    | entry s k v =>
      show after.foldl tableStep ((ns.take 2 ++ (toldName s v).toList).take 2) = _
      cases ht : toldName s v with
      | none =>
        rw [List.filterMap_cons_none (show saysName (.entry s k v) = none from ht), Option.toList_none, List.append_nil, List.take_take, Nat.min_self]
        exact ih ns
      | some t =>
        rw [List.filterMap_cons_some (show saysName (.entry s k v) = some t from ht), Option.toList_some, show (ns.take 2 ++ [t]).take 2 = (ns ++ [t]).take 2 by
          match ns with
          | [] => rfl
          | [_] => rfl
          | _ :: _ :: _ => simp, ih (ns ++ [t]), List.append_assoc, List.singleton_append]

/-- C100. Asking a new list: reading a member no event has set is undefined behaviour, and after a reset nothing is. -/
theorem C100_new (c : Nat) (w w' : World) (ops : List Op) (es : List ListEvent) (h : Happens (fun w op u => w.step op = .ok u) c w ops w' es) (d : LocoListConsumer)
    (hd : w.consumers c = .list .construct) (hd' : w'.consumers c = .list d) :
    (d.isStreamComplete = .error .uninitRead ↔ ∀ e ∈ es, e ≠ .complete ∧ e ≠ .aborted ∧ e ≠ .reset) ∧
    (d.getStreamOffset = .error .uninitRead ↔ ∀ e ∈ es, (∀ b, e ≠ .offset b) ∧ e ≠ .aborted ∧ e ≠ .reset) ∧
    ((∀ e ∈ es, (∀ s k v, e ≠ .entry s k v) ∧ e ≠ .aborted ∧ e ≠ .reset) → d.getNumEnginesKnownByMaster = .error .uninitRead) ∧
    (.reset ∈ es ∨ .aborted ∈ es → (∃ b, d.isStreamComplete = .ok b) ∧ (∃ b, d.getStreamOffset = .ok b) ∧ ∃ b, d.getNumEnginesKnownByMaster = .ok b) := by
  have r := happens_remembers (fun h d hd => ⟨step_pf h, step_remembers h c d hd⟩) h _ d hd hd'
  have none_iff : ∀ {α : Type} (f : ListEvent → Option α), latest f es = none ↔ ∀ e ∈ es, f e = none := by
    intro α f
    unfold latest
    rw [List.getLast?_eq_none_iff, List.filterMap_eq_nil_iff]
  have hc := r.complete
  have ho := r.offset
  refine ⟨?_, ?_, ?_, ?_⟩
  · have : d.isStreamComplete = .error .uninitRead ↔ latest saysComplete es = none := by
      unfold LocoListConsumer.isStreamComplete
      rw [hc]
      cases latest saysComplete es with
      | none => exact ⟨fun _ => rfl, fun _ => rfl⟩
      | some b => exact ⟨fun hh => (by cases hh), fun hh => (by cases hh)⟩
    rw [this, none_iff]
    refine forall_congr' fun e => forall_congr' fun _ => ?_
    cases e <;> simp [saysComplete]
  · have : d.getStreamOffset = .error .uninitRead ↔ latest saysOffset es = none := by
      unfold LocoListConsumer.getStreamOffset
      rw [ho]
      cases latest saysOffset es with
      | none => exact ⟨fun _ => rfl, fun _ => rfl⟩
      | some b => exact ⟨fun hh => (by cases hh), fun hh => (by cases hh)⟩
    rw [this, none_iff]
    refine forall_congr' fun e => forall_congr' fun _ => ?_
    cases e <;> simp [saysOffset]
  · intro hn
    unfold LocoListConsumer.getNumEnginesKnownByMaster
    rw [r.number ((none_iff _).mpr (fun e he => by
      obtain ⟨h1, h2, h3⟩ := hn e he
      cases e with
      | entry s k v => exact absurd rfl (h1 s k v)
      | aborted => exact absurd rfl h2
      | reset => exact absurd rfl h3
      | complete | offset _ | clear => rfl))]
    rfl
  · intro hm
    obtain ⟨e, he, hs⟩ : ∃ e ∈ es, e = .reset ∨ e = .aborted := by
      rcases hm with hm | hm
      · exact ⟨_, hm, .inl rfl⟩
      · exact ⟨_, hm, .inr rfl⟩
    have some_of : ∀ {α : Type} (f : ListEvent → Option α), f e ≠ none → ∃ b, latest f es = some b := by
      intro α f hf
      cases hl : latest f es with
      | none => exact absurd ((none_iff f).mp hl e he) hf
      | some b => exact ⟨b, rfl⟩
    refine ⟨?_, ?_, ?_⟩
    · obtain ⟨b, hb⟩ := some_of saysComplete (by rcases hs with rfl | rfl <;> simp [saysComplete])
      exact ⟨b, r.answers.1 b hb⟩
    · obtain ⟨b, hb⟩ := some_of saysOffset (by rcases hs with rfl | rfl <;> simp [saysOffset])
      exact ⟨b, r.answers.2.2.1 b hb⟩
    · have := r.set ⟨e, he, by rcases hs with rfl | rfl <;> rfl⟩
      unfold LocoListConsumer.getNumEnginesKnownByMaster
      cases hn : d.numEnginesKnownByMaster with
      | none => rw [hn] at this; cases this
      | some b => exact ⟨b, rfl⟩

/-- List consumer 1, to which parser 0 gives data. -/
def listCase : Res World := do
  let t ← TextParser.construct (List.replicate 31 0xAA#8) (List.replicate 11 0xAA#8) (List.replicate 11 0xAA#8) (List.replicate 26 0xAA#8)
  World.run
    { pf := ⟨64⟩, station := {}, parsers := fun _ => StreamParser.construct t, consumers := fun _ => .list LocoListConsumer.construct,
      engines := fun _ => Locomotive.construct (List.replicate 9 0xAA#8), log := [] }
    [.setEndCallback 1 (some 7), .begin_ 0 { tx := some 0 }]

/-- A download of the list begins: a stream of 8 bytes. -/
def listAsked (offset : Byte) : List Op :=
  [.setStreamOffset 1 offset, .parserStart 0 (some 1), .parserStartStream 0, .parserAdd 0 { dlc := 6, b3 := 8, b4 := 0x31, b5 := 0x3E }]

/-- What the list says of completeness and of the offset. -/
def listAfter (ops : List Op) : Res (Res Bool × Res Byte) := do
  let w ← listCase
  let w ← w.run ops
  match w.consumers 1 with
  | .list c => .ok (c.isStreamComplete, c.getStreamOffset)
  | _ => .error .nullDeref

/-- Asking a new list is undefined behaviour; after a download it is complete; while the next page is downloaded, it still says that
it is complete, with the new offset; and it says so no more after that download was ended or after a reset. -/
example : listAfter [] = .ok (.error .uninitRead, .error .uninitRead) ∧ listAfter (listAsked 2) = .ok (.error .uninitRead, .ok 2) ∧
    listAfter (listAsked 2 ++ [.parserAdd 0 { dlc := 8 }]) = .ok (.ok true, .ok 2) ∧
    listAfter (listAsked 2 ++ [.parserAdd 0 { dlc := 8 }] ++ listAsked 4) = .ok (.ok true, .ok 4) ∧
    listAfter (listAsked 2 ++ [.parserAdd 0 { dlc := 8 }] ++ listAsked 4 ++ [.parserReset 0]) = .ok (.ok false, .ok 0) ∧
    listAfter (listAsked 2 ++ [.parserAdd 0 { dlc := 8 }, .resetList 1]) = .ok (.ok false, .ok 0) := by
  refine ⟨?_, ?_, ?_, ?_, ?_, ?_⟩ <;> decide +kernel

/-- The beginning of a list: `[loknamen]`, three times `.n=`, with A, BC and D, and `.wert=47` of `[numloks]`. -/
def listPage : List Op :=
  [.parserStart 0 (some 1), .parserStartStream 0, .parserAdd 0 { dlc := 6, b3 := 255 },
    .parserAdd 0 { dlc := 8, b0 := 0x5B, b1 := 0x6C, b2 := 0x6F, b3 := 0x6B, b4 := 0x6E, b5 := 0x61, b6 := 0x6D, b7 := 0x65 },
    .parserAdd 0 { dlc := 8, b0 := 0x6E, b1 := 0x5D, b2 := 0x0A, b3 := 0x20, b4 := 0x2E, b5 := 0x6E, b6 := 0x3D, b7 := 0x41 },
    .parserAdd 0 { dlc := 8, b0 := 0x0A, b1 := 0x20, b2 := 0x2E, b3 := 0x6E, b4 := 0x3D, b5 := 0x42, b6 := 0x43, b7 := 0x0A },
    .parserAdd 0 { dlc := 8, b0 := 0x20, b1 := 0x2E, b2 := 0x6E, b3 := 0x3D, b4 := 0x44, b5 := 0x0A, b6 := 0x5B, b7 := 0x6E },
    .parserAdd 0 { dlc := 8, b0 := 0x75, b1 := 0x6D, b2 := 0x6C, b3 := 0x6F, b4 := 0x6B, b5 := 0x73, b6 := 0x5D, b7 := 0x0A },
    .parserAdd 0 { dlc := 8, b0 := 0x20, b1 := 0x2E, b2 := 0x77, b3 := 0x65, b4 := 0x72, b5 := 0x74, b6 := 0x3D, b7 := 0x34 },
    .parserAdd 0 { dlc := 8, b0 := 0x37, b1 := 0x0A, b2 := 0x0A, b3 := 0x0A, b4 := 0x0A, b5 := 0x0A, b6 := 0x0A, b7 := 0x0A }]

/-- What the list shows. -/
def listShows (ops : List Op) : Option (List (Option (List Byte)) × Res Byte) :=
  match listCase with
  | .error _ => none
  | .ok w => match w.run ops with
    | .error _ => none
    | .ok u => match u.consumers 1 with
      | .list c => some (slots c, c.getNumEnginesKnownByMaster)
      | _ => none

/-- C101: the first two names and the number are stored, and the third name is lost; if the table is emptied in between, only the name
told after that is in it; nothing is left after the stream was aborted. -/
example : listShows listPage = some ([some (str "A"), some (str "BC")], .ok 47#8) ∧
    listShows (listPage ++ [.clearTable 1]) = some ([none, none], .ok 47#8) ∧
    listShows (listPage.take 6 ++ [.clearTable 1] ++ listPage.drop 6) = some ([some (str "D"), none], .ok 47#8) ∧
    listShows (listPage ++ [.parserReset 0]) = some ([none, none], .ok 0#8) := by
  refine ⟨?_, ?_, ?_, ?_⟩ <;> decide +kernel

/-- Callbacks that set up another list and start the parser again when a stream ends. -/
def listProgram : Program := fun _ e =>
  match e with
  | .streamEnd .. => [.resetList 2, .setStreamOffset 2 6, .parserStart 0 (some 1), .parserStartStream 0]
  | _ => []

/-- C100 with callbacks that call back: they leave list 1 alone, which is complete after its stream. -/
example : (∀ u e, ∀ op ∈ listProgram u e, ordered 1 op = []) ∧
    (match listCase with
    | .error _ => none
    | .ok w => match (World.runN listProgram 2 w (listAsked 2 ++ [.parserAdd 0 { dlc := 8 }])).run with
      | some (.ok u) => match u.consumers 1, u.consumers 2 with
        | .list c, .list d => some (c.isStreamComplete, c.getStreamOffset, d.isStreamComplete, d.getStreamOffset)
        | _, _ => none
      | _ => none) = some (.ok true, .ok 2, .ok false, .ok 6) := by
  refine ⟨fun u e op hop => ?_, by decide +kernel⟩
  unfold listProgram at hop
  split at hop
  · simp only [List.mem_cons, List.not_mem_nil, or_false] at hop
    rcases hop with rfl | rfl | rfl | rfl <;> rfl
  · cases hop

end RR32
