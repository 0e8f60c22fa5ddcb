import Verif.Proofs.Consumers

/-! # C50: what the entries of a stream do to the engine list -/

set_option autoImplicit false

namespace RR32

open Spec

/-- The entry as `LocoListConsumer` gets it. -/
def listEntry (pf : Platform) (c : LocoListConsumer) (e : Entry) : Res LocoListConsumer :=
  c.consumeConfigData pf (ofc 11 e.sect) (ofc 11 e.key) (ofc 26 e.value)

/-- The entries of a stream, one after the other. -/
def listEntries (pf : Platform) (c : LocoListConsumer) : List Entry → Res LocoListConsumer
  | [] => .ok c
  | e :: es => do
      let c ← listEntry pf c e
      listEntries pf c es

/-- The name in a slot of the table, if there is one. -/
def shown (i : ShortInfo) : Option (List Byte) := if i.availability = .EMPTY then none else some (text i.name)

/-- The two slots of the table show these names, and then nothing. -/
def Shows (c : LocoListConsumer) (names : List (List Byte)) : Prop :=
  names.length ≤ 2 ∧ c.engineInfo.map shown = names.map some ++ List.replicate (2 - names.length) none

/-- Same fields but the table. -/
def SameButTable (a b : LocoListConsumer) : Prop :=
  a.streamComplete = b.streamComplete ∧ a.numEnginesKnownByMaster = b.numEnginesKnownByMaster ∧ a.streamOffset = b.streamOffset ∧
    a.streamEndCallback = b.streamEndCallback

/-- The names in a list of entries. -/
def namesIn (es : List Entry) : List (List Byte) := (es.filter (fun e => decide (NamesEngine e))).map (fun e => text e.value)

theorem listEntry_eq (pf : Platform) (c : LocoListConsumer) (e : Entry) (he : e.Fits) :
    listEntry pf c e =
      if NamesEngine e then
        c.findFirstFreeEntry.elim (.ok c) (fun i =>
          (cstr (ofc 26 e.value).mem).bind (fun _ => ((c.engineInfo.getD i ShortInfo.construct).setName (ofc 26 e.value).mem).bind (fun info =>
            .ok { c with engineInfo := c.engineInfo.set i info })))
      else if IsNumber e then
        if IsCount e then ((ofc 26 e.value).asUint8 pf).bind (fun v => .ok { c with numEnginesKnownByMaster := some v }) else .ok c
      else (cstr (ofc 11 e.sect).mem).bind (fun _ => .ok c) := by
  obtain ⟨-, -, -, -, n5, n6, n7⟩ := noNul_names
  unfold listEntry LocoListConsumer.consumeConfigData kEngineNames LocoListConsumer.kSectionNumEngines LocoListConsumer.kGenericValue lit
  rw [strncmp_token 11 e.sect _ he.sect n5, strncmp_token 11 e.sect _ he.sect n6, strncmp_token 11 e.key _ he.key n7]
  simp only [NamesEngine, IsNumber, IsCount, bind, Except.bind]
  by_cases h1 : Matches (str "loknamen") e.sect <;> by_cases h2 : Matches (str "numloks") e.sect <;>
    by_cases h3 : Matches (str "wert") e.key <;> simp [h1, h2, h3] <;> cases c.findFirstFreeEntry <;> rfl

theorem shown_none {i : ShortInfo} : shown i = none ↔ i.isFree = true := by
  unfold shown ShortInfo.isFree
  by_cases h : i.availability = .EMPTY <;> simp [h]

/-- The first free slot is the one behind the names. -/
theorem findFirst_shows {c : LocoListConsumer} {names : List (List Byte)} (h : Shows c names) :
    c.findFirstFreeEntry = if names.length = 2 then none else some names.length := by
  obtain ⟨h1, h2⟩ := h
  unfold LocoListConsumer.findFirstFreeEntry
  have hl := congrArg List.length h2
  simp only [List.length_map, List.length_append, List.length_replicate] at hl
  obtain ⟨a, b, hab⟩ : ∃ a b, c.engineInfo = [a, b] := by
    match hc : c.engineInfo with
    | [a, b] => exact ⟨a, b, rfl⟩
    | [] => rw [hc] at hl; simp at hl; omega
    | [_] => rw [hc] at hl; simp at hl; omega
    | _ :: _ :: _ :: _ => rw [hc] at hl; simp at hl; omega
  rw [hab] at h2 ⊢
  have ha : ∀ i : ShortInfo, i.isFree = (shown i).isNone := by
    intro i
    cases hi : shown i with
    | none => exact shown_none.mp hi
    | some x =>
      cases hf : i.isFree with
      | false => rfl
      | true => rw [shown_none.mpr hf] at hi; cases hi
  match names, h1 with
  | [], _ =>
    simp at h2
    simp [List.findIdx?_cons, ha, h2.1]
  | [x], _ =>
    simp at h2
    simp [List.findIdx?_cons, ha, h2.1, h2.2]
  | [x, y], _ =>
    simp at h2
    simp [List.findIdx?_cons, ha, h2.1, h2.2]

/-- C50: a name goes into the first free slot, cut at its first NUL; in a full table nothing changes. -/
theorem C50_name (pf : Platform) (c : LocoListConsumer) (names : List (List Byte)) (hs : Shows c names) (e : Entry) (he : e.Fits)
    (h : NamesEngine e) (hv : HasNul 26 e.value ∨ names.length = 2) :
    ∃ d, listEntry pf c e = .ok d ∧ Shows d ((names ++ [text e.value]).take 2) ∧ SameButTable d c ∧ (names.length = 2 → d = c) := by
  rw [listEntry_eq pf c e he, if_pos h, findFirst_shows hs]
  by_cases h2 : names.length = 2
  · rw [if_pos h2]
    refine ⟨c, rfl, ?_, ⟨rfl, rfl, rfl, rfl⟩, fun _ => rfl⟩
    rw [List.take_append_of_le_length (by omega), List.take_of_length_le (by omega)]
    exact hs
  · rw [if_neg h2]
    have hv : HasNul 26 e.value := hv.resolve_right h2
    have ht := terminated_ofc hv
    have hlen : (text e.value).length ≤ 26 := Nat.le_trans (text_length_le _) he.value
    simp only [Option.elim, cstr_text ht, Except.bind, shortInfo_setName _ _ (terminated_readable ht 32), text_ofc]
    obtain ⟨hn1, hn2⟩ := hs
    refine ⟨_, rfl, ⟨by simp; omega, ?_⟩, ⟨rfl, rfl, rfl, rfl⟩, fun h => absurd h h2⟩
    have hshow : shown { availability := .NAME_KNOWN, name := (text e.value).take 32 ++ List.replicate (32 - (text e.value).length) 0#8 ++ [0#8] } =
        some (text e.value) := by
      rw [shown, if_neg (show ¬Availability.NAME_KNOWN = .EMPTY by decide), (name_memory e.value).2.2, List.take_of_length_le (by omega)]
    rw [List.map_set, hn2, hshow, List.take_of_length_le (by simp; omega)]
    match names, hn1, h2 with
    | [], _, _ => rfl
    | [x], _, _ => rfl
    | [x, y], _, h2 => exact absurd rfl h2

/-- C50: an entry with the number of engines sets that number and nothing else. -/
theorem C50_count (pf : Platform) (c : LocoListConsumer) (e : Entry) (he : e.Fits) (h : IsCount e) (hv : HasNul 26 e.value) :
    ∃ v, (ofc 26 e.value).asUint8 pf = .ok v ∧ listEntry pf c e = .ok { c with numEnginesKnownByMaster := some v } := by
  obtain ⟨w, hw⟩ := strtol10_ok pf (terminated_ofc hv)
  have : (ofc 26 e.value).asUint8 pf = .ok (BitVec.ofInt 8 w) := by simp only [BufferManager.asUint8, hw, bind, Except.bind]
  refine ⟨_, this, ?_⟩
  rw [listEntry_eq pf c e he, if_neg h.1.1, if_pos h.1, if_pos h, this]
  rfl

/-- C50: every other entry changes nothing, in any state of the list and whatever key and value are. -/
theorem C50_other (pf : Platform) (c : LocoListConsumer) (e : Entry) (he : e.Fits) (h1 : ¬NamesEngine e) (h2 : ¬IsCount e)
    (hs : IsNumber e ∨ HasNul 11 e.sect) : listEntry pf c e = .ok c := by
  rw [listEntry_eq pf c e he, if_neg h1]
  by_cases h3 : IsNumber e
  · rw [if_pos h3, if_neg h2]
  · rw [if_neg h3, cstr_text (terminated_ofc (hs.resolve_left h3))]
    rfl

/-- C50: a parse error changes nothing. -/
theorem C50_error (pf : Platform) (c : LocoListConsumer) : listEntry pf c Entry.error = .ok c :=
  C50_other pf c _ ⟨by decide, by decide, by decide⟩ (by decide) (by decide) (Or.inr (Or.inl (by decide)))

/-- The entries the list can read without leaving a buffer. -/
def ListSafe (e : Entry) : Prop := e.Fits ∧ HasNul 26 e.value ∧ HasNul 11 e.sect

/-- C50, for sequences of entries: the table shows the first two names, among those it had and those received, in order; the count
changes only if there is an entry for it; nothing else changes. -/
theorem C50_sequence (pf : Platform) (c : LocoListConsumer) (names : List (List Byte)) (hs : Shows c names) (es : List Entry)
    (he : ∀ e ∈ es, ListSafe e) :
    ∃ d, listEntries pf c es = .ok d ∧ Shows d ((names ++ namesIn es).take 2) ∧ d.streamComplete = c.streamComplete ∧
      d.streamOffset = c.streamOffset ∧ d.streamEndCallback = c.streamEndCallback ∧
      ((∀ e ∈ es, ¬IsCount e) → d.numEnginesKnownByMaster = c.numEnginesKnownByMaster) := by
  induction es generalizing c names with
  | nil =>
    refine ⟨c, rfl, ?_, rfl, rfl, rfl, fun _ => rfl⟩
    rw [namesIn, List.filter_nil, List.map_nil, List.append_nil, List.take_of_length_le hs.1]
    exact hs
  | cons e es ih =>
    obtain ⟨hf, hv, hsec⟩ := he e (List.mem_cons_self ..)
    have hrest := fun x hx => he x (List.mem_cons_of_mem _ hx)
    by_cases h1 : NamesEngine e
    · obtain ⟨d, a1, a2, ⟨b1, b2, b3, b4⟩, -⟩ := C50_name pf c names hs e hf h1 (Or.inl hv)
      obtain ⟨k, c1, c2, c3, c4, c5, c6⟩ := ih d _ a2 hrest
      refine ⟨k, by simp only [listEntries, a1, bind, Except.bind, c1], ?_, c3.trans b1, c4.trans b3, c5.trans b4,
        fun h => (c6 (fun x hx => h x (List.mem_cons_of_mem _ hx))).trans b2⟩
      have hn : namesIn (e :: es) = text e.value :: namesIn es := by simp [namesIn, h1]
      rw [hn]
      have : ((names ++ [text e.value]).take 2 ++ namesIn es).take 2 = (names ++ text e.value :: namesIn es).take 2 := by
        match names, hs.1 with
        | [], _ => rfl
        | [x], _ => rfl
        | [x, y], _ => rfl
      rw [← this]
      exact c2
    · have hn : namesIn (e :: es) = namesIn es := by simp [namesIn, h1]
      by_cases h2 : IsCount e
      · obtain ⟨v, -, hv⟩ := C50_count pf c e hf h2 hv
        obtain ⟨k, c1, c2, c3, c4, c5, c6⟩ := ih _ names (show Shows { c with numEnginesKnownByMaster := some v } names from hs) hrest
        exact ⟨k, by simp only [listEntries, hv, bind, Except.bind, c1], hn ▸ c2, c3, c4, c5, fun h => absurd h2 (h e (List.mem_cons_self ..))⟩
      · obtain ⟨k, c1, c2, c3, c4, c5, c6⟩ := ih c names hs hrest
        refine ⟨k, ?_, hn ▸ c2, c3, c4, c5, fun h => c6 (fun x hx => h x (List.mem_cons_of_mem _ hx))⟩
        simp only [listEntries, C50_other pf c e hf h1 h2 (Or.inr hsec), bind, Except.bind, c1]

theorem listEntries_append (pf : Platform) (c : LocoListConsumer) (a b : List Entry) :
    listEntries pf c (a ++ b) = (listEntries pf c a).bind (fun d => listEntries pf d b) := by
  induction a generalizing c with
  | nil => rfl
  | cons e a ih =>
    simp only [List.cons_append, listEntries, bind]
    cases listEntry pf c e with
    | error x => rfl
    | ok d => exact ih d

/-- C50: the count after a sequence of entries is that of the last entry for it. -/
theorem C50_last_count (pf : Platform) (c : LocoListConsumer) (names : List (List Byte)) (hs : Shows c names) (pre post : List Entry) (e : Entry)
    (he : ∀ x ∈ pre ++ e :: post, ListSafe x) (h : IsCount e) (hp : ∀ x ∈ post, ¬IsCount x) :
    ∃ d v, listEntries pf c (pre ++ e :: post) = .ok d ∧ (ofc 26 e.value).asUint8 pf = .ok v ∧ d.numEnginesKnownByMaster = some v := by
  obtain ⟨d1, a1, a2, -⟩ := C50_sequence pf c names hs pre (fun x hx => he x (List.mem_append_left _ hx))
  obtain ⟨hf, hv, -⟩ := he e (List.mem_append_right _ (List.mem_cons_self ..))
  obtain ⟨v, b1, b2⟩ := C50_count pf d1 e hf h hv
  obtain ⟨d, c1, -, -, -, -, c6⟩ := C50_sequence pf _ _ (show Shows { d1 with numEnginesKnownByMaster := some v } _ from a2) post
    (fun x hx => he x (List.mem_append_right _ (List.mem_cons_of_mem _ hx)))
  refine ⟨d, v, ?_, b1, c6 hp⟩
  rw [listEntries_append, a1]
  simp only [Except.bind, listEntries, b2, bind]
  exact c1

/-- A cleared list shows no names. -/
theorem shows_clear (c : LocoListConsumer) (h : c.engineInfo.length = 2) : Shows c.clearTable [] := by
  refine ⟨by decide, ?_⟩
  simp only [LocoListConsumer.clearTable]
  match c.engineInfo, h with
  | [a, b], _ => rfl

/-- C50, for entries with sections and keys that are free of NULs and no proper prefixes of the names, and short enough for the buffers:
names come only from section `loknamen`, the count only from `wert` in section `numloks`. Missing: proper prefixes, for which it is
false (`C50_false`), and tokens that fill their buffer (`C50_overrun`). -/
theorem C50_named_partial (e : Entry) (hs : NoNul e.sect) (hk : NoNul e.key) (us : Unambiguous [str "loknamen", str "numloks"] e.sect)
    (uk : Unambiguous [str "wert"] e.key) :
    (NamesEngine e ↔ e.sect = str "loknamen") ∧ (IsCount e ↔ e.sect = str "numloks" ∧ e.key = str "wert") := by
  have h1 : NamesEngine e ↔ e.sect = str "loknamen" :=
    ⟨fun h => us _ (by simp) ((Matches_iff _ _ hs).mp h), fun h => by unfold NamesEngine; rw [h]; decide⟩
  refine ⟨h1, fun h => ⟨us _ (by simp) ((Matches_iff _ _ hs).mp h.1.2), uk _ (by simp) ((Matches_iff _ _ hk).mp h.2)⟩, ?_⟩
  rintro ⟨h2, h3⟩
  unfold IsCount IsNumber NamesEngine
  rw [h2, h3]
  decide

/-- C50 is false: the value of any entry in a section whose name is a prefix of "loknamen" (also the empty one, or the section `lok`)
becomes a name. -/
theorem C50_false (pf : Platform) (c : LocoListConsumer) (hc : c.engineInfo.length = 2) (s k v : List Byte) (hs : s <+: str "loknamen")
    (hk : k.length ≤ 11) (hv : v.length < 26) :
    ∃ d, listEntry pf c.clearTable { sect := s, key := k, value := v } = .ok d ∧ Shows d [text v] := by
  have hs1 : NoNul s := fun x hx => noNul_names.2.2.2.2.1 x (hs.subset hx)
  have hl : s.length ≤ 8 := hs.length_le
  obtain ⟨d, h1, h2, -⟩ := C50_name pf c.clearTable [] (shows_clear c hc) { sect := s, key := k, value := v }
    ⟨Nat.le_trans hl (by decide), hk, Nat.le_of_lt hv⟩ ((Matches_iff _ _ hs1).mpr hs) (Or.inl (Or.inl hv))
  exact ⟨d, h1, h2⟩

/-- C50: a name that fills its buffer, and a section of another name that fills its buffer, are read past the end when printed. -/
theorem C50_overrun (pf : Platform) (c : LocoListConsumer) (hc : c.engineInfo.length = 2) :
    listEntry pf c.clearTable ⟨str "loknamen", str ".name", List.replicate 26 65#8⟩ = .error .oobRead ∧
    listEntry pf c ⟨List.replicate 11 65#8, [], []⟩ = .error .oobRead := by
  constructor
  · rw [listEntry_eq pf _ _ ⟨by decide, by decide, by decide⟩, if_pos (by decide), findFirst_shows (shows_clear c hc)]
    rfl
  · rw [listEntry_eq pf _ _ ⟨by decide, by decide, by decide⟩, if_neg (by decide), if_neg (by decide)]
    rfl

/-- C50: three names and a count, into a new list. -/
example : ∃ d, listEntries ⟨32⟩ LocoListConsumer.construct [⟨str "loknamen", str ".name", str "BR 12"⟩, ⟨str "numloks", str "wert", str "7"⟩,
      ⟨str "loknamen", str ".name", str "V 100"⟩, ⟨str "loknamen", str ".name", str "ICE"⟩, ⟨str "fahrzeug", [], []⟩] = .ok d ∧
    d.engineInfo.map shown = [some (str "BR 12"), some (str "V 100")] ∧ d.numEnginesKnownByMaster = some 7#8 := ⟨_, rfl, by decide, rfl⟩

end RR32
