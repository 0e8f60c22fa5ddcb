import Verif.Proofs.Consumers

/-! # C47, C48: what the entries of a stream do to an engine -/

set_option autoImplicit false

namespace RR32

open Spec

/-- The entries of a stream, one after the other. -/
def consumeEntries (pf : Platform) (eng : Locomotive) : List Entry → Res Locomotive
  | [] => .ok eng
  | e :: es => do
      let eng ← consumeEntry pf eng e
      consumeEntries pf eng es

/-- Everything but uid, protocol and address. -/
def SameRest (a b : Locomotive) : Prop :=
  a.info = b.info ∧ a.data.velocity = b.data.velocity ∧ a.data.direction = b.data.direction ∧ a.data.functionBits = b.data.functionBits

theorem SameRest.refl (a : Locomotive) : SameRest a a := ⟨rfl, rfl, rfl, rfl⟩

theorem SameRest.trans {a b c : Locomotive} (h1 : SameRest a b) (h2 : SameRest b c) : SameRest a c :=
  ⟨h1.1.trans h2.1, h1.2.1.trans h2.2.1, h1.2.2.1.trans h2.2.2.1, h1.2.2.2.trans h2.2.2.2⟩

/-! ## C47 -/

/-- C47: an entry that sets the uid sets it to the value of its text, and changes nothing else. -/
theorem C47_uid (pf : Platform) (eng : Locomotive) (e : Entry) (he : e.Fits) (h : SetsUid e) (hv : HasNul 26 e.value) :
    ∃ v, strtoul16 pf (ofc 26 e.value).mem = .ok v ∧
      consumeEntry pf eng e = .ok { eng with data := { eng.data with uid := BitVec.ofNat 32 v } } := by
  obtain ⟨v, h1⟩ := strtoul16_ok pf (terminated_ofc hv)
  exact ⟨v, h1, by rw [consumeEntry_eq pf eng e he, if_pos h, h1]; rfl⟩

/-- C47: an entry that sets the protocol stores the first 8 characters of its text, and changes nothing else. -/
theorem C47_protocol (pf : Platform) (eng : Locomotive) (hp : eng.protocol.length = 8) (e : Entry) (he : e.Fits) (h : SetsProtocol e) :
    ∃ p, consumeEntry pf eng e = .ok { eng with protocol := p } ∧ p.length = 8 ∧ text p = (text e.value).take 8 ∧
      (Terminated p ↔ (text e.value).length < 8) := by
  have hn : ¬SetsUid e := fun h' => h.2.1 h'.2
  obtain ⟨k, h1, h2, h3, h4, h5, h6⟩ := C55_exactly eng hp (ofc 26 e.value).mem (readable_ofc he.value 8 (by decide))
  rw [text_ofc] at h5 h6
  refine ⟨k.protocol, ?_, h2, h5, h6⟩
  rw [consumeEntry_eq pf eng e he, if_neg hn, if_pos h, h1]
  cases k
  simp only at h3 h4
  subst h3 h4
  rfl

/-- C47: an entry that sets the address sets it to the value of its text, and changes nothing else. -/
theorem C47_address (pf : Platform) (eng : Locomotive) (e : Entry) (he : e.Fits) (h : SetsAddress e) (hv : HasNul 26 e.value) :
    ∃ v, strtoul16 pf (ofc 26 e.value).mem = .ok v ∧
      consumeEntry pf eng e = .ok { eng with data := { eng.data with address := ⟨BitVec.ofNat 32 v⟩ } } := by
  obtain ⟨v, h1⟩ := strtoul16_ok pf (terminated_ofc hv)
  have n1 : ¬SetsUid e := fun h' => h.2.1 h'.2
  have n2 : ¬SetsProtocol e := fun h' => h.2.2.1 h'.2.2
  exact ⟨v, h1, by rw [consumeEntry_eq pf eng e he, if_neg n1, if_neg n2, if_pos h, h1]; rfl⟩

/-- C47: every other entry changes nothing, whatever its value. -/
theorem C47_other (pf : Platform) (eng : Locomotive) (e : Entry) (he : e.Fits) (h1 : ¬SetsUid e) (h2 : ¬SetsProtocol e)
    (h3 : ¬SetsAddress e) : consumeEntry pf eng e = .ok eng := by
  rw [consumeEntry_eq pf eng e he, if_neg h1, if_neg h2, if_neg h3]

/-- C47: a parse error changes nothing. -/
theorem C47_error (pf : Platform) (eng : Locomotive) : consumeEntry pf eng Entry.error = .ok eng :=
  C47_other pf eng _ ⟨by decide, by decide, by decide⟩ (by decide) (by decide) (by decide)

/-- C47: the key of a nested line (it starts with a dot) changes nothing. -/
theorem C47_nested (pf : Platform) (eng : Locomotive) (e : Entry) (he : e.Fits) (rest : List Byte) (hk : e.key = ch '.' :: rest) :
    consumeEntry pf eng e = .ok eng := by
  obtain ⟨-, n2, n3, n4, -⟩ := noNul_names
  have no : ∀ n : List Byte, NoNul n → n ≠ [] → n.head? ≠ some (ch '.') → ¬Matches n e.key := by
    intro n hn hne hh hm
    rw [hk] at hm
    exact hh (Matches_head hm hn hne)
  exact C47_other pf eng e he (fun h => no _ n2 (by decide) (by decide) h.2) (fun h => no _ n3 (by decide) (by decide) h.2.2)
    (fun h => no _ n4 (by decide) (by decide) h.2.2.2)

/-- One entry: no fault, and only the uid, the protocol or the address changes, each only if the entry is for it. -/
theorem entry_effect (pf : Platform) (eng : Locomotive) (hp : eng.protocol.length = 8) (e : Entry) (he : e.Fits) (hv : HasNul 26 e.value) :
    ∃ k, consumeEntry pf eng e = .ok k ∧ SameRest k eng ∧ k.protocol.length = 8 ∧ (¬SetsUid e → k.data.uid = eng.data.uid) ∧
      (¬SetsProtocol e → k.protocol = eng.protocol) ∧ (¬SetsAddress e → k.data.address = eng.data.address) := by
  by_cases h1 : SetsUid e
  · obtain ⟨v, -, h⟩ := C47_uid pf eng e he h1 hv
    exact ⟨_, h, ⟨rfl, rfl, rfl, rfl⟩, hp, fun h => absurd h1 h, fun _ => rfl, fun _ => rfl⟩
  · by_cases h2 : SetsProtocol e
    · obtain ⟨p, h, hl, -⟩ := C47_protocol pf eng hp e he h2
      exact ⟨_, h, ⟨rfl, rfl, rfl, rfl⟩, hl, fun _ => rfl, fun h => absurd h2 h, fun _ => rfl⟩
    · by_cases h3 : SetsAddress e
      · obtain ⟨v, -, h⟩ := C47_address pf eng e he h3 hv
        exact ⟨_, h, ⟨rfl, rfl, rfl, rfl⟩, hp, fun _ => rfl, fun _ => rfl, fun h => absurd h3 h⟩
      · exact ⟨_, C47_other pf eng e he h1 h2 h3, SameRest.refl _, hp, fun _ => rfl, fun _ => rfl, fun _ => rfl⟩

/-- C47, for sequences of entries: name, velocity, direction and functions never change; the uid, the protocol, the address change only
if there is an entry for it. -/
theorem C47_sequence (pf : Platform) (eng : Locomotive) (hp : eng.protocol.length = 8) (es : List Entry)
    (he : ∀ e ∈ es, e.Fits ∧ HasNul 26 e.value) :
    ∃ k, consumeEntries pf eng es = .ok k ∧ SameRest k eng ∧ k.protocol.length = 8 ∧
      ((∀ e ∈ es, ¬SetsUid e) → k.data.uid = eng.data.uid) ∧ ((∀ e ∈ es, ¬SetsProtocol e) → k.protocol = eng.protocol) ∧
      ((∀ e ∈ es, ¬SetsAddress e) → k.data.address = eng.data.address) := by
  induction es generalizing eng with
  | nil => exact ⟨eng, rfl, SameRest.refl _, hp, fun _ => rfl, fun _ => rfl, fun _ => rfl⟩
  | cons e es ih =>
    obtain ⟨hf, hv⟩ := he e (List.mem_cons_self ..)
    obtain ⟨k1, a1, a2, a3, a4, a5, a6⟩ := entry_effect pf eng hp e hf hv
    obtain ⟨k, b1, b2, b3, b4, b5, b6⟩ := ih k1 a3 (fun x hx => he x (List.mem_cons_of_mem _ hx))
    refine ⟨k, by simp only [consumeEntries, a1, bind, Except.bind, b1], b2.trans a2, b3, ?_, ?_, ?_⟩
    · intro h; rw [b4 (fun x hx => h x (List.mem_cons_of_mem _ hx)), a4 (h e (List.mem_cons_self ..))]
    · intro h; rw [b5 (fun x hx => h x (List.mem_cons_of_mem _ hx)), a5 (h e (List.mem_cons_self ..))]
    · intro h; rw [b6 (fun x hx => h x (List.mem_cons_of_mem _ hx)), a6 (h e (List.mem_cons_self ..))]

theorem consumeEntries_append (pf : Platform) (eng : Locomotive) (a b : List Entry) :
    consumeEntries pf eng (a ++ b) = (consumeEntries pf eng a).bind (fun k => consumeEntries pf k b) := by
  induction a generalizing eng with
  | nil => rfl
  | cons e a ih =>
    simp only [List.cons_append, consumeEntries, bind]
    cases consumeEntry pf eng e with
    | error x => rfl
    | ok k => exact ih k

/-- C47: after a sequence of entries the uid, the protocol, the address is that of the last entry for it. -/
theorem C47_last (pf : Platform) (eng : Locomotive) (hp : eng.protocol.length = 8) (pre post : List Entry) (e : Entry)
    (he : ∀ x ∈ pre ++ e :: post, x.Fits ∧ HasNul 26 x.value) :
    ∃ k, consumeEntries pf eng (pre ++ e :: post) = .ok k ∧
      (SetsUid e → (∀ x ∈ post, ¬SetsUid x) → ∃ v, strtoul16 pf (ofc 26 e.value).mem = .ok v ∧ k.data.uid = BitVec.ofNat 32 v) ∧
      (SetsProtocol e → (∀ x ∈ post, ¬SetsProtocol x) → text k.protocol = (text e.value).take 8) ∧
      (SetsAddress e → (∀ x ∈ post, ¬SetsAddress x) → ∃ v, strtoul16 pf (ofc 26 e.value).mem = .ok v ∧ k.data.address = ⟨BitVec.ofNat 32 v⟩) := by
  obtain ⟨k1, a1, -, a3, -⟩ := C47_sequence pf eng hp pre (fun x hx => he x (List.mem_append_left _ hx))
  obtain ⟨hf, hv⟩ := he e (List.mem_append_right _ (List.mem_cons_self ..))
  obtain ⟨k2, b1, -, b3, -⟩ := entry_effect pf k1 a3 e hf hv
  obtain ⟨k, c1, -, -, c4, c5, c6⟩ := C47_sequence pf k2 b3 post (fun x hx => he x (List.mem_append_right _ (List.mem_cons_of_mem _ hx)))
  refine ⟨k, ?_, fun h hn => ?_, fun h hn => ?_, fun h hn => ?_⟩
  · rw [consumeEntries_append, a1]
    simp only [Except.bind, consumeEntries, b1, bind]
    exact c1
  · obtain ⟨v, h1, h2⟩ := C47_uid pf k1 e hf h hv
    rw [h2] at b1
    cases b1
    exact ⟨v, h1, c4 hn⟩
  · obtain ⟨p, h1, -, h3, -⟩ := C47_protocol pf k1 a3 e hf h
    rw [h1] at b1
    cases b1
    rw [c5 hn]
    exact h3
  · obtain ⟨v, h1, h2⟩ := C47_address pf k1 e hf h hv
    rw [h2] at b1
    cases b1
    exact ⟨v, h1, c6 hn⟩

/-- The entry has one of the three keys of section `lokomotive`. -/
def IsNamed (e : Entry) : Prop := e.sect = str "lokomotive" ∧ (e.key = str "uid" ∨ e.key = str "typ" ∨ e.key = str "adresse")

/-- C47, for entries whose section and key contain no NUL and are not proper prefixes of the names: only the named ones change the
engine. Missing: proper prefixes of the names, for which it is false (`C47_false`), and names with NULs in them. -/
theorem C47_named_partial (pf : Platform) (eng : Locomotive) (e : Entry) (he : e.Fits) (hs : NoNul e.sect) (hk : NoNul e.key)
    (us : Unambiguous [str "lokomotive"] e.sect) (uk : Unambiguous [str "uid", str "typ", str "adresse"] e.key) (h : ¬IsNamed e) :
    consumeEntry pf eng e = .ok eng := by
  have hsect : IsLoco e → e.sect = str "lokomotive" := fun h => us _ (by simp) ((Matches_iff _ _ hs).mp h)
  have hkey : ∀ n ∈ [str "uid", str "typ", str "adresse"], Matches n e.key → e.key = n := fun n hn h => uk n hn ((Matches_iff _ _ hk).mp h)
  refine C47_other pf eng e he (fun h' => h ⟨hsect h'.1, ?_⟩) (fun h' => h ⟨hsect h'.1, ?_⟩) (fun h' => h ⟨hsect h'.1, ?_⟩)
  · exact Or.inl (hkey _ (by simp) h'.2)
  · exact Or.inr (Or.inl (hkey _ (by simp) h'.2.2))
  · exact Or.inr (Or.inr (hkey _ (by simp) h'.2.2.2))

/-- C47 is false: in every section whose name is a prefix of "lokomotive" (also the empty one), every key that is a prefix of "uid" (also
the empty one) sets the uid. -/
theorem C47_false (pf : Platform) (hpf : 32 ≤ pf.longBits) (eng : Locomotive) (s k : List Byte) (hs : s <+: str "lokomotive") (hk : k <+: str "uid") :
    consumeEntry pf eng { sect := s, key := k, value := str "1" } = .ok { eng with data := { eng.data with uid := 1#32 } } := by
  have hs1 : NoNul s := fun c hc => noNul_names.1 c (hs.subset hc)
  have hk1 : NoNul k := fun c hc => noNul_names.2.1 c (hk.subset hc)
  have hs2 : s.length ≤ 10 := hs.length_le
  have hk2 : k.length ≤ 3 := hk.length_le
  have he : Entry.Fits { sect := s, key := k, value := str "1" } := ⟨Nat.le_succ_of_le hs2, Nat.le_trans hk2 (by decide), show (str "1").length ≤ 26 by decide⟩
  have hu : SetsUid { sect := s, key := k, value := str "1" } := ⟨(Matches_iff _ _ hs1).mpr hs, (Matches_iff _ _ hk1).mpr hk⟩
  rw [consumeEntry_eq pf eng _ he, if_pos hu]
  have ht : Terminated (ofc 26 (str "1")).mem := terminated_ofc (Or.inl (by decide))
  have hn : Numeral 16 (str "1") 1 := Numeral.snoc (l := []) (d := 1) .nil (by decide) (Or.inl (by decide))
  have : strtoul16 pf (ofc 26 (str "1")).mem = .ok 1 := by
    rw [strtoul16_numeral pf _ [] (str "1") 1 ht (by rw [text_ofc]; rfl) (Or.inl rfl) hn (by decide), if_neg]
    have : 2 ^ 32 ≤ 2 ^ pf.longBits := Nat.pow_le_pow_right (by decide) hpf
    omega
  show Except.bind (strtoul16 pf (ofc 26 (str "1")).mem) _ = _
  rw [this]
  rfl

/-- C47: the reading of values leaves the buffer if the value fills it. -/
theorem C47_overrun (pf : Platform) (eng : Locomotive) :
    consumeEntry pf eng { sect := str "lokomotive", key := str "uid", value := List.replicate 26 (ch '1') } = .error .oobRead := by
  have he : Entry.Fits { sect := str "lokomotive", key := str "uid", value := List.replicate 26 (ch '1') } := ⟨by decide, by decide, by decide⟩
  have hu : SetsUid { sect := str "lokomotive", key := str "uid", value := List.replicate 26 (ch '1') } := by decide
  rw [consumeEntry_eq pf eng _ he, if_pos hu]
  rfl

/-- C47: an engine file with nested lines, an unknown key and the three named ones. -/
example : ∃ k, consumeEntries ⟨32⟩ (Locomotive.construct [])
      [⟨str "lokomotive", str "uid", str "0x4006"⟩, ⟨str "lokomotive", str "name", str "BR 12"⟩, ⟨str "lokomotive", str ".typ", str "7"⟩,
       ⟨str "lokomotive", str "adresse", str "0x6"⟩, ⟨str "lokomotive", str "typ", str "mm2_prg"⟩] = .ok k ∧
    k.data.uid = 0x4006#32 ∧ k.data.address = ⟨6#32⟩ ∧ text k.protocol = str "mm2_prg" := ⟨_, rfl, by decide, by decide, by decide⟩

/-! ## C48 -/

/-- C48: every numeral of a 32-bit value, with or without `0x`, in either case and with leading zeros, as uid. -/
theorem C48_uid (pf : Platform) (hpf : 32 ≤ pf.longBits) (eng : Locomotive) (e : Entry) (he : e.Fits) (h : SetsUid e)
    (pre l : List Byte) (v : U32) (hval : e.value = pre ++ l) (hpre : IsHexPrefix pre) (hl : Numeral 16 l v.toNat) (hne : l ≠ [])
    (hlen : e.value.length < 26) :
    consumeEntry pf eng e = .ok { eng with data := { eng.data with uid := v } } := by
  have hn : NoNul e.value := by
    rw [hval]
    refine noNul_append.mpr ⟨?_, numeral_noNul (Nat.le_refl 16) hl⟩
    rcases hpre with rfl | rfl | rfl <;> decide
  have ht := terminated_ofc (cap := 26) (Or.inl hlen : HasNul 26 e.value)
  have hs := strtoul16_numeral pf _ pre l v.toNat ht (by rw [text_ofc, text_of_noNul _ hn, hval]) hpre hl hne
  have hlt : ¬2 ^ pf.longBits ≤ v.toNat := by
    have := v.isLt
    have : 2 ^ 32 ≤ 2 ^ pf.longBits := Nat.pow_le_pow_right (by decide) hpf
    omega
  rw [if_neg hlt] at hs
  obtain ⟨w, h1, h2⟩ := C47_uid pf eng e he h (Or.inl hlen)
  rw [hs] at h1
  cases h1
  rw [h2, BitVec.ofNat_toNat, BitVec.setWidth_eq]

/-- C48: the same as address. -/
theorem C48_address (pf : Platform) (hpf : 32 ≤ pf.longBits) (eng : Locomotive) (e : Entry) (he : e.Fits) (h : SetsAddress e)
    (pre l : List Byte) (v : U32) (hval : e.value = pre ++ l) (hpre : IsHexPrefix pre) (hl : Numeral 16 l v.toNat) (hne : l ≠ [])
    (hlen : e.value.length < 26) :
    consumeEntry pf eng e = .ok { eng with data := { eng.data with address := ⟨v⟩ } } := by
  have hn : NoNul e.value := by
    rw [hval]
    refine noNul_append.mpr ⟨?_, numeral_noNul (Nat.le_refl 16) hl⟩
    rcases hpre with rfl | rfl | rfl <;> decide
  have ht := terminated_ofc (cap := 26) (Or.inl hlen : HasNul 26 e.value)
  have hs := strtoul16_numeral pf _ pre l v.toNat ht (by rw [text_ofc, text_of_noNul _ hn, hval]) hpre hl hne
  have hlt : ¬2 ^ pf.longBits ≤ v.toNat := by
    have := v.isLt
    have : 2 ^ 32 ≤ 2 ^ pf.longBits := Nat.pow_le_pow_right (by decide) hpf
    omega
  rw [if_neg hlt] at hs
  obtain ⟨w, h1, h2⟩ := C47_address pf eng e he h (Or.inl hlen)
  rw [hs] at h1
  cases h1
  rw [h2, BitVec.ofNat_toNat, BitVec.setWidth_eq]

/-- The usual text of a number in hexadecimal. -/
def hexText (v : U32) : List Byte := (Nat.toDigits 16 v.toNat).map ch

theorem hexText_length (v : U32) : (hexText v).length ≤ 8 := by
  rw [hexText, List.length_map]
  exact (Nat.length_toDigits_le_iff (by decide) (by decide)).mpr v.isLt

/-- C48: the usual text of every 32-bit value, with and without `0x`, is read as that value on both platforms. -/
theorem C48_hex (pf : Platform) (hpf : pf.longBits = 32 ∨ pf.longBits = 64) (v : U32) (eng : Locomotive) :
    consumeEntry pf eng ⟨str "lokomotive", str "uid", str "0x" ++ hexText v⟩ = .ok { eng with data := { eng.data with uid := v } } ∧
    consumeEntry pf eng ⟨str "lokomotive", str "uid", hexText v⟩ = .ok { eng with data := { eng.data with uid := v } } ∧
    consumeEntry pf eng ⟨str "lokomotive", str "adresse", str "0x" ++ hexText v⟩ = .ok { eng with data := { eng.data with address := ⟨v⟩ } } ∧
    consumeEntry pf eng ⟨str "lokomotive", str "adresse", hexText v⟩ = .ok { eng with data := { eng.data with address := ⟨v⟩ } } := by
  have hp : 32 ≤ pf.longBits := by omega
  have hl := hexText_length v
  have hl2 : (str "0x" ++ hexText v).length ≤ 10 := by rw [List.length_append]; have : (str "0x").length = 2 := rfl; omega
  have hd := numeral_toDigits 16 (by decide) v.toNat
  have hne := toDigits_ne 16 v.toNat
  have k1 : (str "lokomotive").length ≤ 11 := by decide
  have k2 : (str "uid").length ≤ 11 := by decide
  have k3 : (str "adresse").length ≤ 11 := by decide
  have m0 : Matches (str "lokomotive") (str "lokomotive") := by decide
  have m1 : Matches (str "uid") (str "uid") := by decide
  have m2 : ¬Matches (str "uid") (str "adresse") := by decide
  have m3 : ¬Matches (str "typ") (str "adresse") := by decide
  have m4 : Matches (str "adresse") (str "adresse") := by decide
  refine ⟨C48_uid pf hp eng ⟨str "lokomotive", str "uid", str "0x" ++ hexText v⟩ ⟨k1, k2, Nat.le_trans hl2 (by decide)⟩ ⟨m0, m1⟩ _ _ v rfl (Or.inr (Or.inl rfl)) hd hne (Nat.lt_of_le_of_lt hl2 (by decide)),
    C48_uid pf hp eng ⟨str "lokomotive", str "uid", hexText v⟩ ⟨k1, k2, Nat.le_trans hl (by decide)⟩ ⟨m0, m1⟩ [] _ v rfl (Or.inl rfl) hd hne (Nat.lt_of_le_of_lt hl (by decide)),
    C48_address pf hp eng ⟨str "lokomotive", str "adresse", str "0x" ++ hexText v⟩ ⟨k1, k3, Nat.le_trans hl2 (by decide)⟩ ⟨m0, m2, m3, m4⟩ _ _ v rfl (Or.inr (Or.inl rfl)) hd hne
      (Nat.lt_of_le_of_lt hl2 (by decide)),
    C48_address pf hp eng ⟨str "lokomotive", str "adresse", hexText v⟩ ⟨k1, k3, Nat.le_trans hl (by decide)⟩ ⟨m0, m2, m3, m4⟩ [] _ v rfl (Or.inl rfl) hd hne
      (Nat.lt_of_le_of_lt hl (by decide))⟩

/-- C48: decimal counts. Counts that fit into a `long` are taken modulo 256; larger ones become 255. -/
theorem C48_count (pf : Platform) (hpf : 9 ≤ pf.longBits) (l : List Byte) (n : Nat) (hl : Numeral 10 l n) (hne : l ≠ []) (hlen : l.length < 26) :
    (ofc 26 l).asUint8 pf = .ok (if n < 2 ^ (pf.longBits - 1) then BitVec.ofNat 8 n else 255#8) := by
  have hn := numeral_noNul (by decide) hl
  have ht := terminated_ofc (cap := 26) (Or.inl hlen : HasNul 26 l)
  have hs := strtol10_numeral pf _ l n ht (by rw [text_ofc, text_of_noNul _ hn]) hl hne
  simp only [BufferManager.asUint8, hs, bind, Except.bind]
  congr 1
  by_cases h : n < 2 ^ (pf.longBits - 1)
  · rw [if_pos h, if_neg (by omega)]
    rfl
  · rw [if_neg h, if_pos (by omega)]
    have e : 2 ^ (pf.longBits - 1) = 256 * 2 ^ (pf.longBits - 9) := by
      have : pf.longBits - 1 = 8 + (pf.longBits - 9) := by omega
      rw [this, Nat.pow_add]
    rw [e]
    have h1 : 0 < 2 ^ (pf.longBits - 9) := Nat.pow_pos (by decide)
    generalize 2 ^ (pf.longBits - 9) = k at *
    have : (((256 * k : Nat) : Int) - 1) = ((256 * k - 1 : Nat) : Int) := by omega
    rw [this]
    show BitVec.ofNat 8 (256 * k - 1) = 255#8
    apply BitVec.eq_of_toNat_eq
    simp
    omega

/-- C48: every count up to 255 as the master writes it. -/
theorem C48_count_exact (pf : Platform) (hpf : pf.longBits = 32 ∨ pf.longBits = 64) (n : Byte) :
    (ofc 26 (decText n.toNat)).asUint8 pf = .ok n := by
  have hn := n.isLt
  have hd := numeral_toDigits 10 (by decide) n.toNat
  rw [← decText_eq] at hd
  have hlen := decText_length_le n.toNat 3 (by decide) (by omega)
  have hne : decText n.toNat ≠ [] := by intro h; have := decText_length_pos n.toNat; rw [h] at this; exact absurd this (by decide)
  rw [C48_count pf (by omega) _ _ hd hne (by omega), if_pos, BitVec.ofNat_toNat, BitVec.setWidth_eq]
  rcases hpf with h | h <;> rw [h] <;> omega

/-- C48: values in both cases of letters, and a count above 255. -/
example : (∃ k, consumeEntry ⟨64⟩ (Locomotive.construct []) ⟨str "lokomotive", str "uid", str "0x00DeadBEEF"⟩ = .ok k ∧ k.data.uid = 0xDEADBEEF#32) ∧
    (ofc 26 (str "300")).asUint8 ⟨32⟩ = .ok 44#8 ∧ (ofc 26 (str "99999999999")).asUint8 ⟨32⟩ = .ok 255#8 := ⟨⟨_, rfl, by decide⟩, rfl, rfl⟩

end RR32
