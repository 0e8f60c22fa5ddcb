import Verif.Spec.Editing
import Verif.Proofs.Document
import Verif.Props.Text

/-! # The text parser with a consumer that modifies its buffers -/

set_option autoImplicit false

namespace RR32

open Spec

/-! ## The calls -/

theorem editOne_le {cap : Nat} {s : List Byte} (h : s.length ≤ cap) (c : BufCall) : (editOne cap s c).length ≤ cap := by
  cases c with
  | erase => simp [editOne]
  | pop_front n => simp [editOne]; omega
  | push_back text => simp [editOne]; omega
  | push_back_char c =>
    simp only [editOne]
    split
    · simp; omega
    · exact h
  | set text => simp [editOne]; omega
  | put i c => simpa [editOne] using h

theorem edit_le {cap : Nat} {s : List Byte} (h : s.length ≤ cap) (l : List BufCall) : (edit cap s l).length ≤ cap := by
  induction l generalizing s with
  | nil => exact h
  | cons c l ih => exact ih (editOne_le h c)

theorem run_ofc {cap : Nat} {s : List Byte} (h : s.length ≤ cap) (h1 : 1 ≤ cap) (hc : cap ≤ 255) (c : BufCall) (hl : MayCall s c) :
    BufCall.run (ofc cap s) c = .ok (ofc cap (editOne cap s c)) := by
  cases c with
  | erase => exact ofc.erase h
  | pop_front n => exact ofc.pop_front h hc n
  | push_back text =>
    have := ofc.push_back h hc { mem := text, len := text.length, cap := text.length } (Nat.le_refl _)
    simp only [BufCall.run, this, bind, Except.bind]
    simp [content, editOne]
  | push_back_char c =>
    simp only [BufCall.run, BufferManager.push_back_char, editOne]
    have e1 : (ofc cap s).len = s.length := rfl
    have e2 : (ofc cap s).cap = cap := rfl
    rw [e1, e2]
    by_cases hf : s.length < cap
    · rw [if_pos hf, if_pos hf]
      have hp : pokeAt (ofc cap s).mem s.length [c] = .ok (s ++ c :: List.replicate (cap - s.length - 1) 0#8) := by
        unfold pokeAt
        rw [if_pos (by simp [ofc]; omega)]
        have : List.replicate (cap - s.length) 0#8 = 0#8 :: List.replicate (cap - s.length - 1) 0#8 := by
          rw [← List.replicate_succ]; congr 1; omega
        simp [ofc, this]
      simp only [hp, bind, Except.bind]
      have hu : u8 (s.length + 1) = s.length + 1 := by simp only [u8]; omega
      rw [hu]
      simp [ofc, Nat.sub_sub]
    · rw [if_neg hf, if_neg hf]
      rfl
  | set text => exact ofc.set_any (ofc cap s) (ofc.mem_length h) h1 hc text [] hl
  | put i c =>
    have hp := List.length_pos_iff.mpr hl.2
    have e : (ofc cap s).limitIndex i = min i (s.length - 1) := by
      unfold BufferManager.limitIndex
      have : (ofc cap s).len = s.length := rfl
      rw [this]
      by_cases hi : i ≥ s.length
      · rw [if_pos hi]; simp only [u8]; omega
      · rw [if_neg hi]; omega
    simp only [BufCall.run, BufferManager.setAt, e, bind, Except.bind]
    have hk : min i (s.length - 1) < s.length := by omega
    simp only [editOne]
    generalize min i (s.length - 1) = k at *
    have hpk : pokeAt (ofc cap s).mem k [c] = .ok (s.set k c ++ List.replicate (cap - s.length) 0#8) := by
      unfold pokeAt
      rw [if_pos (by simp [ofc]; omega)]
      congr 1
      rw [List.set_eq_take_append_cons_drop, if_pos hk]
      simp [ofc, List.take_append_of_le_length (Nat.le_of_lt hk), List.drop_append_of_le_length (show k + 1 ≤ s.length from hk)]
    rw [hpk]
    simp [ofc]

theorem runs_ofc {cap : Nat} {s : List Byte} (h : s.length ≤ cap) (h1 : 1 ≤ cap) (hc : cap ≤ 255) (l : List BufCall)
    (hl : MayCalls cap s l) : BufCall.runs (ofc cap s) l = .ok (ofc cap (edit cap s l)) := by
  induction l generalizing s with
  | nil => rfl
  | cons c l ih =>
    have e := run_ofc h h1 hc c hl.1
    simp only [BufCall.runs, List.foldlM_cons, e, bind, Except.bind]
    exact ih (editOne_le h c) hl.2

/-! ## The reader with such a consumer -/

/-- A consumer of the model with a habit. -/
def Spec.Habit.editor (E : Habit) : Editor := fun h => E (h.map (fun e => (told e).2))

theorem told_snd (c : Nat) (es : List Entry) : (toEvents (some c) es).map (fun e => (told e).2) = es := by
  have := congrArg (List.map Prod.snd) (told_toEvents (some c) es)
  rw [List.map_map] at this
  rw [show (fun e => (told e).2) = Prod.snd ∘ told from rfl, this]
  simp [tell, Function.comp_def]

theorem editor_eq (E : Habit) (c : Nat) (es : List Entry) : E.editor (toEvents (some c) es) = E es := by
  unfold Spec.Habit.editor; rw [told_snd]

/-- The reader after the edits. -/
def Spec.Reader.edited (s : Reader) (x : Edits) : Reader :=
  { s with sect := edit maxSection s.sect x.sect, key := edit maxKey s.key x.key, value := edit maxValue s.value x.value }

theorem fits_edited {s : Reader} (h : s.Fits) (x : Edits) : (s.edited x).Fits := ⟨edit_le h.1 _, edit_le h.2 _, edit_le h.3 _⟩

/-- What one byte does: the reader and all the consumer has been told. -/
def Spec.Reader.byteE (E : Habit) (a : Reader × List Entry) (b : Byte) : Reader × List Entry :=
  match a.1.byte b with
  | (s', []) => (s', a.2)
  | (s', e :: _) =>
      let t := Reader.edited { mode := s'.mode, sect := e.sect, key := e.key, value := e.value } (E (a.2 ++ [e]))
      (if s'.mode = .error then t
       else { mode := .look, sect := t.sect, key := [], value := if a.1.mode = .value then [] else t.value }, a.2 ++ [e])

/-- What a sequence of bytes does. -/
def Spec.Reader.bytesE (E : Habit) (a : Reader × List Entry) (l : List Byte) : Reader × List Entry := l.foldl (Reader.byteE E) a

/-- A failure. -/
def Spec.Reader.failE (E : Habit) (done : List Entry) : Reader × List Entry :=
  (Reader.edited .failed (E (done ++ [Entry.error])), done ++ [Entry.error])

theorem bytesE_append (E : Habit) (a : Reader × List Entry) (l m : List Byte) :
    Reader.bytesE E a (l ++ m) = Reader.bytesE E (Reader.bytesE E a l) m := by
  simp [Reader.bytesE]

theorem bytesE_cons (E : Habit) (a : Reader × List Entry) (b : Byte) (m : List Byte) :
    Reader.bytesE E a (b :: m) = Reader.bytesE E (Reader.byteE E a b) m := rfl

theorem bytesE_quiet (E : Habit) (s : Reader) (done : List Entry) (l : List Byte) (h : (s.bytes l).2 = []) :
    Reader.bytesE E (s, done) l = ((s.bytes l).1, done) := by
  induction l generalizing s with
  | nil => rfl
  | cons b l ih =>
    rw [Reader.bytes_cons, List.append_eq_nil_iff] at h
    rw [bytesE_cons, Reader.bytes_cons]
    have e : Reader.byteE E (s, done) b = ((s.byte b).1, done) := by
      unfold Reader.byteE
      have : s.byte b = ((s.byte b).1, []) := Prod.ext rfl h.1
      rw [this]
    rw [e]
    exact ih _ h.2

theorem bytesE_error (E : Habit) (s : Reader) (hs : s.mode = .error) (done : List Entry) (l : List Byte) :
    Reader.bytesE E (s, done) l = (s, done) := by
  have := bytesE_quiet E s done l (by rw [Reader.bytes_error s hs])
  rwa [Reader.bytes_error s hs] at this

theorem quiet_error (s : Reader) (l : List Byte) (h : (s.bytes l).2 = []) (hm : (s.bytes l).1.mode = .error) : s.mode = .error := by
  induction l generalizing s with
  | nil => exact hm
  | cons b l ih =>
    rw [Reader.bytes_cons] at h hm
    rw [List.append_eq_nil_iff] at h
    have := ih _ h.2 hm
    have h1 := h.1
    revert this h1
    unfold Reader.byte
    cases hmode : s.mode <;> simp only <;> (repeat' split) <;> simp_all [Reader.failed]

theorem bytesE_failed (E : Habit) (s : Reader) (done : List Entry) (l : List Byte) (h : s.bytes l = (.failed, [Entry.error])) :
    Reader.bytesE E (s, done) l = Reader.failE E done := by
  induction l generalizing s with
  | nil => cases h
  | cons b l ih =>
    rw [Reader.bytes_cons] at h
    obtain ⟨h1, h2⟩ := Prod.mk.inj h
    rw [bytesE_cons]
    match hb : s.byte b with
    | (s', []) =>
      rw [hb] at h1 h2
      have e : Reader.byteE E (s, done) b = (s', done) := by unfold Reader.byteE; simp only [hb]
      rw [e]
      exact ih s' (Prod.ext h1 (by simpa using h2))
    | (s', e :: es) =>
      rw [hb] at h1 h2
      simp only [List.cons_append, List.cons.injEq, List.append_eq_nil_iff] at h2
      obtain ⟨rfl, rfl, h4⟩ := h2
      have hm := quiet_error s' l h4 (by rw [h1]; rfl)
      have hs : s' = .failed := by
        rw [Reader.bytes_error s' hm] at h1
        exact h1
      subst hs
      have e : Reader.byteE E (s, done) b = Reader.failE E done := by
        unfold Reader.byteE; simp only [hb]
        rfl
      rw [e]
      exact bytesE_error E _ rfl _ l

/-! ## The functions of the parser -/

theorem tellE_conc (E : Habit) (hE : E.Lawful) (s : Reader) (hs : s.Fits) (c : Nat) (w : List Byte) (done : List Entry) :
    TextParser.tellE E.editor (conc s (some c) w) (toEvents (some c) done) =
      .ok (conc (s.edited (E (done ++ [{ sect := s.sect, key := s.key, value := s.value }]))) (some c) w,
        toEvents (some c) (done ++ [{ sect := s.sect, key := s.key, value := s.value }])) := by
  obtain ⟨l1, l2, l3⟩ := hE done { sect := s.sect, key := s.key, value := s.value } ⟨hs.1, hs.2, hs.3⟩
  have e0 : toEvents (some c) done ++ [{ consumer := c, sect := ofc 11 s.sect, key := ofc 11 s.key, value := ofc 26 s.value }] =
      toEvents (some c) (done ++ [{ sect := s.sect, key := s.key, value := s.value }]) := by
    rw [toEvents_append]; rfl
  have e1 := runs_ofc (cap := 11) hs.1 (by omega) (by omega) _ l1
  have e2 := runs_ofc (cap := 11) hs.2 (by omega) (by omega) _ l2
  have e3 := runs_ofc (cap := 26) hs.3 (by omega) (by omega) _ l3
  simp only [TextParser.tellE, conc, e0, editor_eq, e1, e2, e3, bind, Except.bind]
  rfl

theorem reportE_eq (E : Habit) (hE : E.Lawful) (p : TextParser) (c : Nat) (hc : p.consumer = some c) (done : List Entry) (w : List Byte)
    (h0 : p.buffer = ofc 31 w) (h1 : p.sect.mem.length = 11) (h1' : p.sect.cap = 11)
    (h2 : p.key.mem.length = 11) (h2' : p.key.cap = 11) (h3 : p.value.mem.length = 26) (h3' : p.value.cap = 26) :
    TextParser.reportParseErrorE E.editor p (toEvents (some c) done) =
      .ok (conc (Reader.failE E done).1 (some c) w, toEvents (some c) (Reader.failE E done).2) := by
  have e1 := ofc.set_any p.sect (by omega) (by omega) (by omega) (str "ERROR") [] noNul_error
  have e2 := ofc.set_any p.key (by omega) (by omega) (by omega) (str "ERROR") [] noNul_error
  have e3 := ofc.set_any p.value (by omega) (by omega) (by omega) (str "ERROR") [] noNul_error
  rw [h1'] at e1
  rw [h2'] at e2
  rw [h3'] at e3
  simp only [TextParser.reportParseErrorE, lit, e1, e2, e3, bind, Except.bind, h0, hc]
  exact tellE_conc E hE .failed Reader.fits_failed c w done

theorem fits_failE (E : Habit) (done : List Entry) : (Reader.failE E done).1.Fits := fits_edited Reader.fits_failed _

theorem storeTokenE_eq (E : Habit) (hE : E.Lawful) (s : Reader) (hs : s.Fits) (n : Nat) (done : List Entry) (d : TextParser.Dest)
    (pre a tl : List Byte) (hw : (pre ++ (a ++ tl)).length ≤ 31) (r : TextParser.FindTokenResult) (hr : r.consumed = pre.length + a.length) :
    TextParser.storeTokenE E.editor (conc s (some n) (pre ++ (a ++ tl))) (toEvents (some n) done) pre.length d r =
      .ok (if (destOf s d).length + a.length ≤ destCap d then (conc (pushed s a d) (some n) (pre ++ (a ++ tl)), toEvents (some n) done, r)
           else (conc (Reader.failE E done).1 (some n) (pre ++ (a ++ tl)), toEvents (some n) (Reader.failE E done).2,
             { r with success := false })) := by
  obtain ⟨v1, v2, v3⟩ := view_content pre a tl hw
  have hw' : pre.length + (a.length + tl.length) ≤ 31 := by simpa using hw
  have core : ∀ (cap : Nat) (c : List Byte) (hc : c.length ≤ cap) (h255 : cap ≤ 255),
      (ofc cap c).push_back ((ofc 31 (pre ++ (a ++ tl))).subBufferManager pre.length (pre.length + a.length)) =
        .ok (ofc cap (c ++ a.take (cap - c.length)), min (cap - c.length) a.length) := by
    intro cap c hc h255
    rw [ofc.push_back hc h255 _ v3, v1]
  cases d with
  | null =>
    rw [if_pos (by simp only [destOf, destCap, List.length_nil]; omega)]
    rfl
  | sect =>
    have e := core 11 s.sect hs.sect (by omega)
    have h1 := hs.sect
    unfold maxSection at h1
    simp only [TextParser.storeTokenE, TextParser.dest, conc, hr, e, bind, Except.bind, destOf, destCap, v2]
    by_cases hf : s.sect.length + a.length ≤ 11
    · rw [if_neg (by omega), if_pos hf, List.take_of_length_le (by omega)]
      rfl
    · rw [if_pos (by omega), if_neg hf]
      rw [reportE_eq E hE _ n rfl done (pre ++ (a ++ tl)) rfl (by simp [TextParser.withDest, ofc]; omega) rfl
        (ofc.mem_length hs.key) rfl (ofc.mem_length hs.value) rfl]
      rfl
  | key =>
    have e := core 11 s.key hs.key (by omega)
    have h1 := hs.key
    unfold maxKey at h1
    simp only [TextParser.storeTokenE, TextParser.dest, conc, hr, e, bind, Except.bind, destOf, destCap, v2]
    by_cases hf : s.key.length + a.length ≤ 11
    · rw [if_neg (by omega), if_pos hf, List.take_of_length_le (by omega)]
      rfl
    · rw [if_pos (by omega), if_neg hf]
      rw [reportE_eq E hE _ n rfl done (pre ++ (a ++ tl)) rfl (ofc.mem_length hs.sect) rfl (by simp [TextParser.withDest, ofc]; omega) rfl
        (ofc.mem_length hs.value) rfl]
      rfl
  | value =>
    have e := core 26 s.value hs.value (by omega)
    have h1 := hs.value
    unfold maxValue at h1
    simp only [TextParser.storeTokenE, TextParser.dest, conc, hr, e, bind, Except.bind, destOf, destCap, v2]
    by_cases hf : s.value.length + a.length ≤ 26
    · rw [if_neg (by omega), if_pos hf, List.take_of_length_le (by omega)]
      rfl
    · rw [if_pos (by omega), if_neg hf]
      rw [reportE_eq E hE _ n rfl done (pre ++ (a ++ tl)) rfl (ofc.mem_length hs.sect) rfl (ofc.mem_length hs.key) rfl
        (by simp [TextParser.withDest, ofc]; omega) rfl]
      rfl

theorem findTokenE_conc (E : Habit) (hE : E.Lawful) (s : Reader) (hs : s.Fits) (n : Nat) (done : List Entry) (d : TextParser.Dest)
    (chars : List Byte) (hn : NoNul chars) (hl : chars.length < 256) (pre a tl : List Byte) (hw : (pre ++ (a ++ tl)).length ≤ 31)
    (ha : ∀ b ∈ a, b ∉ chars) (hne : a ++ tl ≠ []) (ht : ∀ c r, tl = c :: r → c ∈ chars) :
    ∃ m, TextParser.findTokenE E.editor (conc s (some n) (pre ++ (a ++ tl))) (toEvents (some n) done) pre.length (chars ++ [0#8]) d =
        .ok (if (destOf s d).length + a.length ≤ destCap d
             then (conc (pushed s a d) (some n) (pre ++ (a ++ tl)), toEvents (some n) done, tokenResult (pre.length + a.length) tl)
             else (conc (Reader.failE E done).1 (some n) (pre ++ (a ++ tl)), toEvents (some n) (Reader.failE E done).2,
               { consumed := pre.length + a.length, success := false, matchingChar := m })) := by
  have hw' : pre.length + (a.length + tl.length) ≤ 31 := by simpa using hw
  have h1 := searchToken_eq chars hn hl pre a tl hw ha hne ht
  have h2 := storeTokenE_eq E hE s hs n done d pre a tl hw (searchResult (pre.length + a.length) tl) (by cases tl <;> rfl)
  refine ⟨(searchResult (pre.length + a.length) tl).matchingChar, ?_⟩
  simp only [TextParser.findTokenE, bind, Except.bind]
  rw [show (conc s (some n) (pre ++ (a ++ tl))).buffer = ofc 31 (pre ++ (a ++ tl)) from rfl, h1]
  simp only [h2]
  by_cases hf : (destOf s d).length + a.length ≤ destCap d
  · simp only [if_pos hf]
    cases tl with
    | nil => rfl
    | cons c r =>
      simp only [searchResult, if_true, tokenResult, u8]
      simp only [List.length_cons] at hw'
      rw [Nat.mod_eq_of_lt (by omega)]
  · simp only [if_neg hf]
    cases tl <;> rfl

theorem bytesE_stop (E : Habit) (s t : Reader) (done : List Entry) (a : List Byte) (c : Byte) (r : List Byte) (h : s.bytes a = (t, [])) :
    Reader.bytesE E (s, done) (a ++ c :: r) = Reader.bytesE E (Reader.byteE E (t, done) c) r := by
  rw [bytesE_append, bytesE_quiet E s done a (by rw [h]), h, bytesE_cons]

theorem byteE_quiet (E : Habit) (s t : Reader) (done : List Entry) (c : Byte) (h : s.byte c = (t, [])) :
    Reader.byteE E (s, done) c = (t, done) := by
  unfold Reader.byteE; simp only [h]

/-- One turn of the loop reads a non-empty part of the rest. -/
theorem processStepE_conc (E : Habit) (hE : E.Lawful) (s : Reader) (hs : s.Fits) (n : Nat) (done : List Entry) (pre rest : List Byte)
    (hne : rest ≠ []) (hw : (pre ++ rest).length ≤ 31) :
    ∃ k s' done', TextParser.processStepE E.editor (conc s (some n) (pre ++ rest)) (toEvents (some n) done) pre.length =
        .ok (conc s' (some n) (pre ++ rest), toEvents (some n) done', pre.length + k, false) ∧
      0 < k ∧ k ≤ rest.length ∧ s'.Fits ∧ Reader.bytesE E (s, done) rest = Reader.bytesE E (s', done') (rest.drop k) := by
  have drop_tl : ∀ a c (r : List Byte), (a ++ c :: r).drop (a.length + 1) = r := by intro a c r; simp
  match hm : s.mode with
  | .look =>
    obtain ⟨a, tl, rfl, ha, ht⟩ := split_stop (str ".[") rest
    have haf : IsFiller a := by
      intro b hb
      have := ha b hb
      constructor
      · intro e; exact this (by rw [e]; decide)
      · intro e; exact this (by rw [e]; decide)
    have hw' : pre.length + (a.length + tl.length) ≤ 31 := by simpa using hw
    obtain ⟨m, hf⟩ := findTokenE_conc E hE s hs n done .null (str ".[") (by intro c hc; revert c; decide) (by decide) pre a tl hw ha hne ht
    rw [if_pos (by simp only [destOf, destCap, List.length_nil]; omega)] at hf
    have hst : (conc s (some n) (pre ++ (a ++ tl))).state = .LOOKING_FOR_KEY_OR_SECTION_START := by simp [conc, hm, stateOf]
    simp only [TextParser.processStepE, hst, TextParser.kKeyOrSectionStart, lit, hf, bind, Except.bind]
    cases tl with
    | nil =>
      refine ⟨a.length, s, done, by rfl, List.length_pos_iff.mpr (by simpa using hne), by simp, hs, ?_⟩
      rw [List.append_nil, bytesE_quiet E s done a (by rw [Reader.bytes_filler s hm a haf]), Reader.bytes_filler s hm a haf]
      simp [Reader.bytesE]
    | cons c r =>
      simp only [List.length_cons] at hw'
      have hu : u8 (pre.length + a.length + 1 + 256 - 1) = pre.length + a.length := by simp only [u8]; omega
      have hg : (ofc 31 (pre ++ (a ++ c :: r))).get (pre.length + a.length) = .ok c := by
        rw [ofc.get hw (by omega) _ (by simp)]
        simp
      have hb : ∀ s', (conc s' (some n) (pre ++ (a ++ c :: r))).buffer = ofc 31 (pre ++ (a ++ c :: r)) := fun _ => rfl
      have hby := bytesE_stop E s s done a c r (Reader.bytes_filler s hm a haf)
      simp only [tokenResult, if_true, hu, hb, hg, pushed]
      by_cases h1 : c = ch '['
      · rw [if_pos (show c = TextParser.kSectionStart from h1)]
        have he : (conc s (some n) (pre ++ (a ++ c :: r))).sect.erase = .ok (ofc 11 []) := ofc.erase hs.sect
        rw [he]
        refine ⟨a.length + 1, { s with mode := .sect, sect := [] }, done, by rfl, by omega, by simp, ⟨by simp, hs.key, hs.value⟩, ?_⟩
        rw [hby, drop_tl, byteE_quiet E s _ done c (by simp [Reader.byte, hm, h1]; rfl)]
      · rw [if_neg (show ¬c = TextParser.kSectionStart from h1)]
        have h2 : c = ch '.' := by
          have := ht c r rfl
          have h3 : c ∈ [ch '.', ch '['] := this
          simp only [List.mem_cons, List.not_mem_nil, or_false] at h3
          exact h3.resolve_right h1
        rw [if_pos (show c = TextParser.kKeyStart from h2)]
        refine ⟨a.length + 1, { s with mode := .key }, done, by rfl, by omega, by simp, ⟨hs.sect, hs.key, hs.value⟩, ?_⟩
        have h4 : ¬ch '.' = ch '[' := by decide
        rw [hby, drop_tl, byteE_quiet E s _ done c (by simp [Reader.byte, hm, h2, h4]; rfl)]
  | .sect =>
    obtain ⟨a, tl, rfl, ha, ht⟩ := split_stop (str "]") rest
    have haf : IsName a := by
      intro b hb e
      exact ha b hb (by rw [e]; decide)
    have hw' : pre.length + (a.length + tl.length) ≤ 31 := by simpa using hw
    obtain ⟨m, hf⟩ := findTokenE_conc E hE s hs n done .sect (str "]") (by intro c hc; revert c; decide) (by decide) pre a tl hw ha hne ht
    have hst : (conc s (some n) (pre ++ (a ++ tl))).state = .PARSING_SECTION := by simp [conc, hm, stateOf]
    have hby := Reader.bytes_name s hm hs.sect a haf
    unfold maxSection at hby
    by_cases hfit : s.sect.length + a.length ≤ 11
    · rw [if_pos hfit] at hby
      rw [if_pos (show (destOf s .sect).length + a.length ≤ destCap .sect from hfit)] at hf
      simp only [TextParser.processStepE, hst, TextParser.kSectionStop, lit, hf, bind, Except.bind]
      have hs' : (pushed s a .sect).Fits := ⟨by simpa [pushed, maxSection] using hfit, hs.key, hs.value⟩
      cases tl with
      | nil =>
        refine ⟨a.length, pushed s a .sect, done, by rfl, List.length_pos_iff.mpr (by simpa using hne), by simp, hs', ?_⟩
        rw [List.append_nil, bytesE_quiet E s done a (by rw [hby]), hby]
        simp [Reader.bytesE, pushed]
      | cons c r =>
        have hc : c = ch ']' := by simpa [str] using ht c r rfl
        refine ⟨a.length + 1, { s with mode := .look, sect := s.sect ++ a }, done, by rfl, by omega, by simp, ⟨hs'.sect, hs.key, hs.value⟩, ?_⟩
        rw [drop_tl, bytesE_stop E s _ done a c r hby, byteE_quiet E _ _ done c (by simp [Reader.byte, hm, hc]; rfl)]
    · rw [if_neg hfit] at hby
      rw [if_neg (show ¬(destOf s .sect).length + a.length ≤ destCap .sect from hfit)] at hf
      simp only [TextParser.processStepE, hst, TextParser.kSectionStop, lit, hf, bind, Except.bind]
      have h11 := hs.sect
      unfold maxSection at h11
      refine ⟨a.length, (Reader.failE E done).1, (Reader.failE E done).2, by rfl, by omega, by simp, fits_failE E done, ?_⟩
      rw [bytesE_append, bytesE_failed E s done a hby]
      simp
  | .key =>
    obtain ⟨a, tl, rfl, ha, ht⟩ := split_stop [ch '=', ch '\n'] rest
    have haf : IsKey a := by
      intro b hb
      have := ha b hb
      simpa using this
    have hw' : pre.length + (a.length + tl.length) ≤ 31 := by simpa using hw
    obtain ⟨m, hf⟩ := findTokenE_conc E hE s hs n done .key [ch '=', ch '\n'] (by intro c hc; revert c; decide) (by decide) pre a tl hw ha hne ht
    have hst : (conc s (some n) (pre ++ (a ++ tl))).state = .PARSING_KEY := by simp [conc, hm, stateOf]
    have hch : ([TextParser.kKeyStop, TextParser.kValueStop, 0#8] : List Byte) = [ch '=', ch '\n'] ++ [0#8] := rfl
    have hby := Reader.bytes_key s hm hs.key a haf
    unfold maxKey at hby
    by_cases hfit : s.key.length + a.length ≤ 11
    · rw [if_pos hfit] at hby
      rw [if_pos (show (destOf s .key).length + a.length ≤ destCap .key from hfit)] at hf
      have hs' : (pushed s a .key).Fits := ⟨hs.sect, by simpa [pushed, maxKey] using hfit, hs.value⟩
      cases tl with
      | nil =>
        simp only [TextParser.processStepE, hst, hch, hf, bind, Except.bind]
        refine ⟨a.length, pushed s a .key, done, by rfl, List.length_pos_iff.mpr (by simpa using hne), by simp, hs', ?_⟩
        rw [List.append_nil, bytesE_quiet E s done a (by rw [hby]), hby]
        simp [Reader.bytesE, pushed]
      | cons c r =>
        simp only [tokenResult] at hf
        simp only [TextParser.processStepE, hst, hch, hf, bind, Except.bind]
        rw [if_pos trivial]
        by_cases h1 : c = ch '='
        · rw [if_pos (show c = TextParser.kKeyStop from h1)]
          refine ⟨a.length + 1, { s with mode := .value, key := s.key ++ a }, done, by rfl, by omega, by simp,
            ⟨hs.sect, hs'.key, hs.value⟩, ?_⟩
          rw [drop_tl, bytesE_stop E s _ done a c r hby, byteE_quiet E _ _ done c (by simp [Reader.byte, hm, h1]; rfl)]
        · have h2 : c = ch '\n' := by
            have h3 := ht c r rfl
            simp only [List.mem_cons, List.not_mem_nil, or_false] at h3
            exact h3.resolve_left h1
          rw [if_neg (show ¬c = TextParser.kKeyStop from h1), if_pos (show c = TextParser.kValueStop from h2)]
          have e1 : (conc (pushed s a .key) (some n) (pre ++ (a ++ c :: r))).value.erase = .ok (ofc 26 []) := ofc.erase hs.value
          rw [e1]
          have hs2 : Reader.Fits { pushed s a .key with value := [] } := ⟨hs'.sect, hs'.key, by simp⟩
          have e3 := tellE_conc E hE { pushed s a .key with value := [] } hs2 n (pre ++ (a ++ c :: r)) done
          have e3' : TextParser.tellE E.editor { conc (pushed s a .key) (some n) (pre ++ (a ++ c :: r)) with value := ofc 26 [] }
              (toEvents (some n) done) = _ := e3
          simp only [e3']
          generalize hx : E (done ++ [{ sect := s.sect, key := s.key ++ a, value := [] }]) = x at *
          have hx' : E (done ++ [{ sect := (pushed s a .key).sect, key := (pushed s a .key).key, value := [] }]) = x := hx
          simp only [hx']
          have hf2 := fits_edited hs2 x
          have e2 : (conc (Reader.edited { pushed s a .key with value := [] } x) (some n) (pre ++ (a ++ c :: r))).key.erase = .ok (ofc 11 []) :=
            ofc.erase hf2.key
          simp only [e2]
          refine ⟨a.length + 1, { mode := .look, sect := edit maxSection s.sect x.sect, key := [], value := edit maxValue [] x.value },
            done ++ [{ sect := s.sect, key := s.key ++ a, value := [] }], by rfl, by omega, by simp, ⟨hf2.sect, by simp, hf2.value⟩, ?_⟩
          rw [drop_tl, bytesE_stop E s _ done a c r hby]
          have h4 : ¬ch '\n' = ch '=' := by decide
          congr 1
          simp [Reader.byteE, Reader.byte, hm, h2, h4, hx, Reader.edited]
    · rw [if_neg hfit] at hby
      rw [if_neg (show ¬(destOf s .key).length + a.length ≤ destCap .key from hfit)] at hf
      simp only [TextParser.processStepE, hst, hch, hf, bind, Except.bind]
      have h11 := hs.key
      unfold maxKey at h11
      refine ⟨a.length, (Reader.failE E done).1, (Reader.failE E done).2, by rfl, by omega, by simp, fits_failE E done, ?_⟩
      rw [bytesE_append, bytesE_failed E s done a hby]
      simp
  | .value =>
    obtain ⟨a, tl, rfl, ha, ht⟩ := split_stop [ch '\n'] rest
    have haf : IsValue a := by
      intro b hb
      have := ha b hb
      simpa using this
    have hw' : pre.length + (a.length + tl.length) ≤ 31 := by simpa using hw
    obtain ⟨m, hf⟩ := findTokenE_conc E hE s hs n done .value [ch '\n'] (by intro c hc; revert c; decide) (by decide) pre a tl hw ha hne ht
    have hst : (conc s (some n) (pre ++ (a ++ tl))).state = .PARSING_VALUE := by simp [conc, hm, stateOf]
    have hch : ([TextParser.kValueStop, 0#8] : List Byte) = [ch '\n'] ++ [0#8] := rfl
    have hby := Reader.bytes_value s hm hs.value a haf
    unfold maxValue at hby
    by_cases hfit : s.value.length + a.length ≤ 26
    · rw [if_pos hfit] at hby
      rw [if_pos (show (destOf s .value).length + a.length ≤ destCap .value from hfit)] at hf
      simp only [TextParser.processStepE, hst, hch, hf, bind, Except.bind]
      have hs' : (pushed s a .value).Fits := ⟨hs.sect, hs.key, by simpa [pushed, maxValue] using hfit⟩
      cases tl with
      | nil =>
        refine ⟨a.length, pushed s a .value, done, by rfl, List.length_pos_iff.mpr (by simpa using hne), by simp, hs', ?_⟩
        rw [List.append_nil, bytesE_quiet E s done a (by rw [hby]), hby]
        simp [Reader.bytesE, pushed]
      | cons c r =>
        have hc : c = ch '\n' := by simpa using ht c r rfl
        simp only [tokenResult, if_true]
        have e3 := tellE_conc E hE (pushed s a .value) hs' n (pre ++ (a ++ c :: r)) done
        simp only [e3]
        generalize hx : E (done ++ [{ sect := s.sect, key := s.key, value := s.value ++ a }]) = x at *
        have hx' : E (done ++ [{ sect := (pushed s a .value).sect, key := (pushed s a .value).key, value := (pushed s a .value).value }]) = x := hx
        simp only [hx']
        have hf2 := fits_edited hs' x
        have e1 : (conc (Reader.edited (pushed s a .value) x) (some n) (pre ++ (a ++ c :: r))).value.erase = .ok (ofc 26 []) :=
          ofc.erase hf2.value
        have e2 : (conc (Reader.edited (pushed s a .value) x) (some n) (pre ++ (a ++ c :: r))).key.erase = .ok (ofc 11 []) :=
          ofc.erase hf2.key
        simp only [e1, e2]
        refine ⟨a.length + 1, { mode := .look, sect := edit maxSection s.sect x.sect, key := [], value := [] },
          done ++ [{ sect := s.sect, key := s.key, value := s.value ++ a }], by rfl, by omega, by simp, ⟨hf2.sect, by simp, by simp⟩, ?_⟩
        rw [drop_tl, bytesE_stop E s _ done a c r hby]
        congr 1
        simp [Reader.byteE, Reader.byte, hm, hc, hx, Reader.edited]
    · rw [if_neg hfit] at hby
      rw [if_neg (show ¬(destOf s .value).length + a.length ≤ destCap .value from hfit)] at hf
      simp only [TextParser.processStepE, hst, hch, hf, bind, Except.bind]
      have h11 := hs.value
      unfold maxValue at h11
      refine ⟨a.length, (Reader.failE E done).1, (Reader.failE E done).2, by rfl, by omega, by simp, fits_failE E done, ?_⟩
      rw [bytesE_append, bytesE_failed E s done a hby]
      simp
  | .error =>
    have hst : (conc s (some n) (pre ++ rest)).state = .ERROR := by simp [conc, hm, stateOf]
    refine ⟨rest.length, s, done, ?_, List.length_pos_iff.mpr hne, Nat.le_refl _, hs, ?_⟩
    · simp only [TextParser.processStepE, hst]
      simp [conc, ofc]
    · rw [bytesE_error E s hm, bytesE_error E s hm]

/-- The loop reads the rest. -/
theorem processLoopE_conc (E : Habit) (hE : E.Lawful) (fuel : Nat) (s : Reader) (hs : s.Fits) (n : Nat) (done : List Entry)
    (pre rest : List Byte) (hw : (pre ++ rest).length ≤ 31) (hfuel : rest.length < fuel) :
    TextParser.processLoopE E.editor fuel (conc s (some n) (pre ++ rest)) (toEvents (some n) done) pre.length =
        .ok (conc (Reader.bytesE E (s, done) rest).1 (some n) (pre ++ rest), toEvents (some n) (Reader.bytesE E (s, done) rest).2,
          (pre ++ rest).length) ∧ (Reader.bytesE E (s, done) rest).1.Fits := by
  induction fuel generalizing s done pre rest with
  | zero => omega
  | succ fuel ih =>
    have hlen : (conc s (some n) (pre ++ rest)).buffer.len = (pre ++ rest).length := rfl
    rw [TextParser.processLoopE, hlen]
    by_cases hne : rest = []
    · subst hne
      rw [if_neg (by simp)]
      simp [Reader.bytesE, hs]
    · have hp := List.length_pos_iff.mpr hne
      rw [if_pos (by simp; omega)]
      obtain ⟨k, s', done', h1, h2, h3, h4, h5⟩ := processStepE_conc E hE s hs n done pre rest hne hw
      have e : pre ++ rest = (pre ++ rest.take k) ++ rest.drop k := by simp
      have el : (pre ++ rest.take k).length = pre.length + k := by simp; omega
      have hi := ih s' h4 done' (pre ++ rest.take k) (rest.drop k) (by rw [← e]; exact hw) (by simp; omega)
      rw [← e, el] at hi
      simp only [h1, bind, Except.bind]
      rw [h5]
      exact hi

/-- What a chunk does. -/
def Spec.Reader.chunkE (E : Habit) (a : Reader × List Entry) (l : List Byte) : Reader × List Entry :=
  if l.length > maxChunk ∨ a.1.mode = .error then Reader.failE E a.2 else Reader.bytesE E a l

/-- `addText` in every state a parser can be in. -/
theorem addTextE_conc (E : Habit) (hE : E.Lawful) (s : Reader) (hs : s.Fits) (n : Nat) (done : List Entry) (input : BufferManager)
    (hi : BufOk input) :
    TextParser.addTextE E.editor (conc s (some n) []) (toEvents (some n) done) input =
        .ok (conc (Reader.chunkE E (s, done) (content input)).1 (some n) [], toEvents (some n) (Reader.chunkE E (s, done) (content input)).2) ∧
      (Reader.chunkE E (s, done) (content input)).1.Fits := by
  have hl : (content input).length = input.len := by
    rw [content, List.length_take]; have := hi.len_le; have := hi.mem_le; omega
  have hst : (conc s (some n) []).state = .ERROR ↔ s.mode = .error := by
    simp only [conc]; cases s.mode <;> simp [stateOf]
  unfold TextParser.addTextE Reader.chunkE
  by_cases hc : (content input).length > maxChunk ∨ s.mode = .error
  · rw [if_pos hc, if_pos (by simp only [hl, maxChunk] at hc; simpa [TextParser.kBufferLength, hst] using hc)]
    exact ⟨reportE_eq E hE _ n rfl done [] rfl (ofc.mem_length hs.sect) rfl (ofc.mem_length hs.key) rfl (ofc.mem_length hs.value) rfl,
      fits_failE E done⟩
  · rw [if_neg hc, if_neg (by simp only [hl, maxChunk] at hc; simpa [TextParser.kBufferLength, hst] using hc)]
    simp only [hl, maxChunk, not_or] at hc
    unfold TextParser.loopFuel
    rw [TextParser.addLoopE]
    by_cases h0 : input.len = 0
    · have hn : content input = [] := List.length_eq_zero_iff.mp (by omega)
      rw [if_neg (by omega), hn]
      exact ⟨rfl, hs⟩
    · rw [if_pos (by omega)]
      have hfull : ((conc s (some n) []).buffer.full || decide ((conc s (some n) []).state = .ERROR)) = false := by
        rw [Bool.or_eq_false_iff]
        refine ⟨(show (ofc 31 []).full = false by decide), ?_⟩
        rw [decide_eq_false_iff_not, hst]
        exact hc.2
      rw [hfull]
      simp only [Bool.false_eq_true, if_false]
      have hview := C28_from input hi 0
      have hvok := (C28_view input hi 0 input.len).2.2.1
      have hpush := ofc.push_back (cap := 31) (c := []) (by simp) (by omega) (input.subBufferManagerFrom 0)
        (Nat.le_trans hvok.len_le hvok.mem_le)
      rw [hview, List.drop_zero, List.nil_append, List.length_nil, Nat.sub_zero, hl, Nat.min_eq_right (by omega),
        List.take_of_length_le (by omega)] at hpush
      have hb : (conc s (some n) []).buffer = ofc 31 [] := rfl
      simp only [hb, hpush, bind, Except.bind]
      have hp0 := processLoopE_conc E hE TextParser.loopFuel s hs n done [] (content input) (by simp; omega) (by
          unfold TextParser.loopFuel; omega)
      have hp : TextParser.processLoopE E.editor TextParser.loopFuel { conc s (some n) [] with buffer := ofc 31 (content input) }
          (toEvents (some n) done) 0 = _ := hp0.1
      simp only [hp]
      refine ⟨?_, hp0.2⟩
      have hb2 : ∀ s', (conc s' (some n) (content input)).buffer = ofc 31 (content input) := fun _ => rfl
      have hpop := ofc.pop_front (cap := 31) (c := content input) (by omega) (by omega) (content input).length
      rw [List.drop_length] at hpop
      simp only [List.nil_append]
      simp only [hb2, hpop]
      have hu : u8 (0 + input.len) = input.len := by simp only [u8]; omega
      rw [hu, TextParser.addLoopE, if_neg (by omega)]
      rfl

/-- What a sequence of chunks does. -/
def Spec.Reader.chunksE (E : Habit) (a : Reader × List Entry) (l : List (List Byte)) : Reader × List Entry := l.foldl (Reader.chunkE E) a

theorem addTextsE_conc (E : Habit) (hE : E.Lawful) (s : Reader) (hs : s.Fits) (n : Nat) (done : List Entry) (inputs : List BufferManager)
    (hi : ∀ i ∈ inputs, BufOk i) :
    TextParser.addTextsE E.editor (conc s (some n) []) (toEvents (some n) done) inputs =
        .ok (conc (Reader.chunksE E (s, done) (inputs.map content)).1 (some n) [],
          toEvents (some n) (Reader.chunksE E (s, done) (inputs.map content)).2) ∧
      (Reader.chunksE E (s, done) (inputs.map content)).1.Fits := by
  induction inputs generalizing s done with
  | nil => exact ⟨rfl, hs⟩
  | cons i is ih =>
    obtain ⟨h1, h2⟩ := addTextE_conc E hE s hs n done i (hi i (List.mem_cons_self ..))
    simp only [TextParser.addTextsE, h1, bind, Except.bind]
    exact ih _ h2 _ (fun j hj => hi j (List.mem_cons_of_mem _ hj))

/-- Chunks of legal size are their bytes, if the reader does not give up. -/
theorem chunksE_bytes (E : Habit) (a : Reader × List Entry) (cs : List (List Byte)) (hl : ∀ c ∈ cs, c.length ≤ maxChunk)
    (hm : (Reader.bytesE E a cs.flatten).1.mode ≠ .error) : Reader.chunksE E a cs = Reader.bytesE E a cs.flatten := by
  induction cs generalizing a with
  | nil => rfl
  | cons c cs ih =>
    have ha : a.1.mode ≠ .error := by
      intro h
      rw [bytesE_error E a.1 h a.2] at hm
      exact hm h
    have e : Reader.chunkE E a c = Reader.bytesE E a c := by
      unfold Reader.chunkE
      rw [if_neg]
      have := hl c (List.mem_cons_self ..)
      rintro (h | h)
      · omega
      · exact ha h
    rw [List.flatten_cons, bytesE_append] at hm ⊢
    rw [Reader.chunksE, List.foldl_cons, e]
    exact ih _ (fun d hd => hl d (List.mem_cons_of_mem _ hd)) hm

/-- Between lines, with something left in the value buffer. -/
def Spec.Reader.readyE (sect left : List Byte) : Reader := { mode := .look, sect := sect, key := [], value := left }

theorem readyE_section (sect left f n : List Byte) (hf : IsFiller f) (hn : IsName n) (h : n.length ≤ maxSection) :
    (Reader.readyE sect left).bytes (f ++ ch '[' :: n) = ({ mode := .sect, sect := n, key := [], value := left }, []) := by
  rw [Reader.bytes_append, Reader.bytes_filler _ rfl f hf, Reader.bytes_cons, byte_section _ rfl]
  have := Reader.bytes_name { Reader.readyE sect left with mode := .sect, sect := [] } rfl (by simp) n hn
  rw [if_pos (by simpa using h)] at this
  simp only [this]
  rfl

theorem readyE_key (sect left f k : List Byte) (hf : IsFiller f) (hk : IsKey k) (h : k.length ≤ maxKey) :
    (Reader.readyE sect left).bytes (f ++ ch '.' :: k) = ({ mode := .key, sect := sect, key := k, value := left }, []) := by
  rw [Reader.bytes_append, Reader.bytes_filler _ rfl f hf, Reader.bytes_cons, byte_dot _ rfl]
  have := Reader.bytes_key { Reader.readyE sect left with mode := .key } rfl (by simp [Reader.readyE]) k hk
  rw [if_pos (by simpa [Reader.readyE] using h)] at this
  simp only [this]
  rfl

theorem readyE_key_bad (sect left f k : List Byte) (hf : IsFiller f) (hk : IsKey k) (h : ¬k.length ≤ maxKey) :
    (Reader.readyE sect left).bytes (f ++ ch '.' :: k) = (.failed, [Entry.error]) := by
  rw [Reader.bytes_append, Reader.bytes_filler _ rfl f hf, Reader.bytes_cons, byte_dot _ rfl]
  have := Reader.bytes_key { Reader.readyE sect left with mode := .key } rfl (by simp [Reader.readyE]) k hk
  rw [if_neg (by simpa [Reader.readyE] using h)] at this
  simp only [this]
  rfl

/-- A document for which no line is too long. -/
theorem bytesE_render (E : Habit) (done : List Entry) (sect left : List Byte) (hs : sect.length ≤ maxSection) (hl : left.length ≤ maxValue)
    (items : List Item) (hw : ∀ i ∈ items, i.WellFormed) (es : List Entry) (h : toldBy E done sect left items = some es) :
    ∃ sect' left', sect'.length ≤ maxSection ∧ left'.length ≤ maxValue ∧
      Reader.bytesE E (Reader.readyE sect left, done) (render items) = (Reader.readyE sect' left', es) ∧
      ∀ more, toldBy E done sect left (items ++ more) = toldBy E es sect' left' more := by
  induction items generalizing done sect left with
  | nil => cases h; exact ⟨sect, left, hs, hl, rfl, fun _ => rfl⟩
  | cons i is ih =>
    have hw' : ∀ j ∈ is, j.WellFormed := fun j hj => hw j (List.mem_cons_of_mem _ hj)
    have hi := hw i (List.mem_cons_self ..)
    rw [render, List.flatMap_cons, bytesE_append]
    cases i with
    | «section» f n =>
      rw [toldBy] at h
      split at h
      · rename_i hn
        have e : Reader.bytesE E (Reader.readyE sect left, done) (Item.render (.section f n)) = (Reader.readyE n left, done) := by
          have q0 := readyE_section sect left f n hi.1 hi.2 hn
          have q : (Reader.readyE sect left).bytes (Item.render (.section f n)) = (Reader.readyE n left, []) := by
            rw [Item.render, Reader.bytes_append, q0]
            simp only [Reader.bytes_cons, Reader.bytes]
            rw [byte_close _ rfl]
            rfl
          rw [bytesE_quiet E _ done _ (by rw [q]), q]
        rw [e]
        obtain ⟨a, b, h1, h2, h3, h4⟩ := ih done n left hn hl hw' h
        exact ⟨a, b, h1, h2, h3, fun more => by rw [List.cons_append, toldBy, if_pos hn]; exact h4 more⟩
      · cases h
    | entry f k v =>
      rw [toldBy] at h
      split at h
      · rename_i hn
        have e : Reader.bytesE E (Reader.readyE sect left, done) (Item.render (.entry f k v)) =
            (Reader.readyE (edit maxSection sect (E (done ++ [{ sect := sect, key := k, value := left ++ v }])).sect) [],
              done ++ [{ sect := sect, key := k, value := left ++ v }]) := by
          have q : (Reader.readyE sect left).bytes (f ++ ch '.' :: k ++ ch '=' :: v) =
              ({ mode := .value, sect := sect, key := k, value := left ++ v }, []) := by
            rw [Reader.bytes_append, readyE_key sect left f k hi.1 hi.2.1 hn.1]
            simp only [Reader.bytes_cons]
            rw [byte_equals _ rfl]
            have h2 := Reader.bytes_value { mode := .value, sect := sect, key := k, value := left } rfl hl v hi.2.2
            rw [if_pos (by simpa using hn.2)] at h2
            simp only [h2]
            rfl
          rw [Item.render, bytesE_stop E _ _ done _ (ch '\n') [] q]
          simp [Reader.bytesE, Reader.byteE, Reader.byte, Reader.edited, Reader.readyE]
        rw [e]
        obtain ⟨a, b, h1, h2, h3, h4⟩ := ih _ _ _ (edit_le hs _) (by simp) hw' h
        exact ⟨a, b, h1, h2, h3, fun more => by rw [List.cons_append, toldBy, if_pos hn]; exact h4 more⟩
      · cases h
    | flag f k =>
      rw [toldBy] at h
      split at h
      · rename_i hn
        have e : Reader.bytesE E (Reader.readyE sect left, done) (Item.render (.flag f k)) =
            (Reader.readyE (edit maxSection sect (E (done ++ [{ sect := sect, key := k, value := [] }])).sect)
              (edit maxValue [] (E (done ++ [{ sect := sect, key := k, value := [] }])).value),
              done ++ [{ sect := sect, key := k, value := [] }]) := by
          have q := readyE_key sect left f k hi.1 hi.2 hn
          rw [Item.render, bytesE_stop E _ _ done _ (ch '\n') [] q]
          have h4 : ¬ch '\n' = ch '=' := by decide
          simp [Reader.bytesE, Reader.byteE, Reader.byte, Reader.edited, Reader.readyE, h4]
        rw [e]
        obtain ⟨a, b, h1, h2, h3, h4⟩ := ih _ _ _ (edit_le hs _) (edit_le (by simp) _) hw' h
        exact ⟨a, b, h1, h2, h3, fun more => by rw [List.cons_append, toldBy, if_pos hn]; exact h4 more⟩
      · cases h

/-- A line that is too long. -/
theorem bytesE_bad (E : Habit) (done : List Entry) (sect left : List Byte) (hl : left.length ≤ maxValue) (i : Item) (hw : i.WellFormed)
    (h : toldBy E done sect left [i] = none) : Reader.bytesE E (Reader.readyE sect left, done) i.render = Reader.failE E done := by
  apply bytesE_failed
  cases i with
  | «section» f n =>
    simp only [toldBy] at h
    split at h
    · cases h
    · rename_i hn
      rw [Item.render, Reader.bytes_append]
      have q : (Reader.readyE sect left).bytes (f ++ ch '[' :: n) = (.failed, [Entry.error]) := by
        rw [Reader.bytes_append, Reader.bytes_filler _ rfl f hw.1, Reader.bytes_cons, byte_section _ rfl]
        have := Reader.bytes_name { Reader.readyE sect left with mode := .sect, sect := [] } rfl (by simp) n hw.2
        rw [if_neg (by simpa using hn)] at this
        simp only [this]
        rfl
      rw [q, Reader.bytes_failed]
      rfl
  | flag f k =>
    simp only [toldBy] at h
    split at h
    · cases h
    · rename_i hn
      rw [Item.render, Reader.bytes_append, readyE_key_bad sect left f k hw.1 hw.2 hn, Reader.bytes_failed]
      rfl
  | entry f k v =>
    simp only [toldBy] at h
    split at h
    · cases h
    · rename_i hn
      rw [Item.render, Reader.bytes_append]
      have q : (Reader.readyE sect left).bytes (f ++ ch '.' :: k ++ ch '=' :: v) = (.failed, [Entry.error]) := by
        rw [Reader.bytes_append]
        by_cases hk : k.length ≤ maxKey
        · rw [readyE_key sect left f k hw.1 hw.2.1 hk]
          simp only [Reader.bytes_cons]
          rw [byte_equals _ rfl]
          have h2 := Reader.bytes_value { mode := .value, sect := sect, key := k, value := left } rfl hl v hw.2.2
          rw [if_neg (fun x => hn ⟨hk, by simpa using x⟩)] at h2
          simp only [h2]
          rfl
        · rw [readyE_key_bad sect left f k hw.1 hw.2.1 hk, Reader.bytes_failed]
          rfl
      rw [q, Reader.bytes_failed]
      rfl

/-- Chunks for a reader that gave up. -/
theorem chunksE_error (E : Habit) (a : Reader × List Entry) (ha : a.1.mode = .error) (cs : List (List Byte)) :
    (Reader.chunksE E a cs).1.mode = .error ∧ (Reader.chunksE E a cs).2 = a.2 ++ List.replicate cs.length Entry.error := by
  induction cs generalizing a with
  | nil => simp [Reader.chunksE, ha]
  | cons c cs ih =>
    have e : Reader.chunkE E a c = Reader.failE E a.2 := by unfold Reader.chunkE; rw [if_pos (Or.inr ha)]
    rw [Reader.chunksE, List.foldl_cons, e]
    obtain ⟨h1, h2⟩ := ih (Reader.failE E a.2) rfl
    refine ⟨h1, h2.trans ?_⟩
    simp [Reader.failE, List.replicate_succ]

/-- Chunks of legal size are their bytes, with further reports once the reader gave up. -/
theorem chunksE_any (E : Habit) (a : Reader × List Entry) (ha : a.1.mode ≠ .error) (cs : List (List Byte)) (hl : ∀ c ∈ cs, c.length ≤ maxChunk) :
    ∃ k, (Reader.chunksE E a cs).2 = (Reader.bytesE E a cs.flatten).2 ++ List.replicate k Entry.error ∧
      ((Reader.chunksE E a cs).1.mode = .error ↔ (Reader.bytesE E a cs.flatten).1.mode = .error) := by
  induction cs generalizing a with
  | nil => exact ⟨0, by simp [Reader.chunksE, Reader.bytesE]⟩
  | cons c cs ih =>
    have e : Reader.chunkE E a c = Reader.bytesE E a c := by
      unfold Reader.chunkE
      rw [if_neg]
      have := hl c (List.mem_cons_self ..)
      rintro (h | h)
      · omega
      · exact ha h
    rw [List.flatten_cons, bytesE_append, Reader.chunksE, List.foldl_cons, e]
    by_cases hm : (Reader.bytesE E a c).1.mode = .error
    · obtain ⟨h1, h2⟩ := chunksE_error E _ hm cs
      have h3 : Reader.bytesE E (Reader.bytesE E a c) cs.flatten = Reader.bytesE E a c := bytesE_error E _ hm _ _
      rw [h3]
      exact ⟨cs.length, h2, by simp only [hm]; exact iff_of_true h1 trivial⟩
    · exact ih _ hm (fun d hd => hl d (List.mem_cons_of_mem _ hd))

theorem byte_inBounds (s : Reader) (hs : s.Fits) (b : Byte) (e : Entry) (he : e ∈ (s.byte b).2) : e.InBounds := by
  have h0 : Entry.error.InBounds := ⟨by decide, by decide, by decide⟩
  obtain ⟨h1, h2, h3⟩ := hs
  revert he
  unfold Reader.byte
  cases s.mode <;> simp only <;> (repeat' split) <;> simp only [List.mem_singleton, List.not_mem_nil, false_imp_iff] <;> intro he <;> subst he
  · exact h0
  · exact ⟨h1, h2, by simp⟩
  · exact h0
  · exact ⟨h1, h2, h3⟩
  · exact h0

theorem byteE_inBounds (E : Habit) (a : Reader × List Entry) (ha : a.1.Fits) (hd : ∀ e ∈ a.2, e.InBounds) (b : Byte) :
    (Reader.byteE E a b).1.Fits ∧ ∀ e ∈ (Reader.byteE E a b).2, e.InBounds := by
  have hf := Reader.fits_byte a.1 ha b
  have hi := byte_inBounds a.1 ha b
  unfold Reader.byteE
  cases hb : a.1.byte b with
  | mk s' es =>
    rw [hb] at hf hi
    cases es with
    | nil => exact ⟨hf, hd⟩
    | cons e es =>
      obtain ⟨h1, h2, h3⟩ := hi e (List.mem_cons_self ..)
      have ht := fits_edited (s := { mode := s'.mode, sect := e.sect, key := e.key, value := e.value }) ⟨h1, h2, h3⟩ (E (a.2 ++ [e]))
      refine ⟨?_, ?_⟩
      · simp only
        split
        · exact ht
        · refine ⟨ht.1, by simp, ?_⟩
          simp only
          split
          · simp
          · exact ht.3
      · intro x hx
        rcases List.mem_append.mp hx with h | h
        · exact hd x h
        · rw [List.mem_singleton.mp h]; exact ⟨h1, h2, h3⟩

theorem chunksE_inBounds (E : Habit) (a : Reader × List Entry) (ha : a.1.Fits) (hd : ∀ e ∈ a.2, e.InBounds) (cs : List (List Byte)) :
    ∀ e ∈ (Reader.chunksE E a cs).2, e.InBounds := by
  induction cs generalizing a with
  | nil => exact hd
  | cons c cs ih =>
    rw [Reader.chunksE, List.foldl_cons]
    have key : (Reader.chunkE E a c).1.Fits ∧ ∀ e ∈ (Reader.chunkE E a c).2, e.InBounds := by
      unfold Reader.chunkE
      split
      · refine ⟨fits_failE E _, fun x hx => ?_⟩
        rcases List.mem_append.mp hx with h | h
        · exact hd x h
        · rw [List.mem_singleton.mp h]; exact ⟨by decide, by decide, by decide⟩
      · rename_i hno
        clear ih hno
        induction c generalizing a with
        | nil => exact ⟨ha, hd⟩
        | cons b c ihc =>
          have := byteE_inBounds E a ha hd b
          exact ihc (Reader.byteE E a b) this.1 this.2
    exact ih _ key.1 key.2

/-! ## A consumer that modifies nothing -/

/-- A result of the functions with modifying consumers, from one of the functions without. -/
def withHistory {α β : Type} (h : List ParseEvent) (r : Res (α × List ParseEvent × β)) : Res (α × List ParseEvent × β) :=
  r.map (fun x => (x.1, h ++ x.2.1, x.2.2))

/-- No calls. -/
def noEdits : Edits := { sect := [], key := [], value := [] }

theorem tellE_none (p : TextParser) (h : List ParseEvent) : TextParser.tellE (fun _ => noEdits) p h = .ok (p, h ++ p.emit) := by
  cases hc : p.consumer with
  | none => simp [TextParser.tellE, TextParser.emit, hc]
  | some c =>
    cases p
    cases hc
    rfl

theorem reportE_none (p : TextParser) (h : List ParseEvent) :
    TextParser.reportParseErrorE (fun _ => noEdits) p h = p.reportParseError.map (fun x => (x.1, h ++ x.2)) := by
  unfold TextParser.reportParseErrorE TextParser.reportParseError
  simp only [bind, Except.bind, tellE_none]
  cases p.sect.set (lit "ERROR") with
  | error f => rfl
  | ok a =>
    cases p.key.set (lit "ERROR") with
    | error f => rfl
    | ok b =>
      cases p.value.set (lit "ERROR") with
      | error f => rfl
      | ok c => rfl

theorem storeTokenE_none (p : TextParser) (h : List ParseEvent) (offset : Nat) (d : TextParser.Dest) (r : TextParser.FindTokenResult) :
    TextParser.storeTokenE (fun _ => noEdits) p h offset d r = withHistory h (p.storeToken offset d r) := by
  unfold TextParser.storeTokenE TextParser.storeToken
  cases p.dest d with
  | none => simp [withHistory, Except.map]
  | some db =>
    simp only [bind, Except.bind]
    cases db.push_back (p.buffer.subBufferManager offset r.consumed) with
    | error f => rfl
    | ok x =>
      simp only
      split
      · rw [reportE_none]
        cases (p.withDest d x.1).reportParseError <;> rfl
      · simp [withHistory, Except.map]

theorem findTokenE_none (p : TextParser) (h : List ParseEvent) (offset : Nat) (chars : List Byte) (d : TextParser.Dest) :
    TextParser.findTokenE (fun _ => noEdits) p h offset chars d = withHistory h (p.findToken offset chars d) := by
  unfold TextParser.findTokenE TextParser.findToken
  simp only [bind, Except.bind, storeTokenE_none]
  cases TextParser.searchToken p.buffer offset chars with
  | error f => rfl
  | ok r =>
    simp only
    cases p.storeToken offset d r <;> rfl

theorem processStepE_none (p : TextParser) (h : List ParseEvent) (k : Nat) :
    TextParser.processStepE (fun _ => noEdits) p h k = withHistory h (p.processStep k) := by
  unfold TextParser.processStepE TextParser.processStep
  cases hst : p.state <;> simp only [bind, Except.bind, findTokenE_none]
  · cases p.findToken k TextParser.kKeyOrSectionStart .null with
    | error f => rfl
    | ok x =>
      obtain ⟨q, evs, r⟩ := x
      simp only [withHistory, Except.map]
      split
      · cases q.buffer.get (u8 (r.consumed + 256 - 1)) with
        | error f => rfl
        | ok c =>
          simp only
          split
          · cases q.sect.erase <;> rfl
          · split
            · rfl
            · rw [reportE_none]
              cases q.reportParseError with
              | error f => rfl
              | ok y => simp [Except.map]
      · rfl
  · cases p.findToken k TextParser.kSectionStop .sect with
    | error f => rfl
    | ok x =>
      obtain ⟨q, evs, r⟩ := x
      simp only [withHistory, Except.map]
      split <;> rfl
  · cases p.findToken k [TextParser.kKeyStop, TextParser.kValueStop, 0#8] .key with
    | error f => rfl
    | ok x =>
      obtain ⟨q, evs, r⟩ := x
      simp only [withHistory, Except.map]
      split
      · split
        · rfl
        · split
          · cases q.value.erase with
            | error f => rfl
            | ok v =>
              simp only [tellE_none]
              cases q.key.erase with
              | error f => rfl
              | ok y => simp
          · rfl
      · rfl
  · simp [withHistory, Except.map]
  · cases p.findToken k [TextParser.kValueStop, 0#8] .value with
    | error f => rfl
    | ok x =>
      obtain ⟨q, evs, r⟩ := x
      simp only [withHistory, Except.map]
      split
      · simp only [tellE_none]
        cases q.key.erase with
        | error f => rfl
        | ok y =>
          simp only
          cases q.value.erase with
          | error f => rfl
          | ok z => simp
      · rfl
  · simp [withHistory, Except.map]

theorem processLoopE_none (fuel : Nat) (p : TextParser) (h : List ParseEvent) (k : Nat) :
    TextParser.processLoopE (fun _ => noEdits) fuel p h k = withHistory h (TextParser.processLoop fuel p k) := by
  induction fuel generalizing p h k with
  | zero => rfl
  | succ fuel ih =>
    unfold TextParser.processLoopE TextParser.processLoop
    split
    · simp only [bind, Except.bind, processStepE_none]
      cases p.processStep k with
      | error f => rfl
      | ok x =>
        obtain ⟨q, evs, m, stop⟩ := x
        simp only [withHistory, Except.map]
        split
        · rfl
        · rw [ih]
          cases TextParser.processLoop fuel q m with
          | error f => rfl
          | ok y => simp [withHistory, Except.map]
    · simp [withHistory, Except.map]

theorem addLoopE_none (fuel : Nat) (p : TextParser) (h : List ParseEvent) (input : BufferManager) (k : Nat) :
    TextParser.addLoopE (fun _ => noEdits) fuel p h input k = (TextParser.addLoop fuel p input k).map (fun x => (x.1, h ++ x.2)) := by
  induction fuel generalizing p h k with
  | zero => rfl
  | succ fuel ih =>
    unfold TextParser.addLoopE TextParser.addLoop TextParser.processBuffer
    split
    · split
      · exact reportE_none p h
      · simp only [bind, Except.bind, processLoopE_none]
        cases p.buffer.push_back (input.subBufferManagerFrom k) with
        | error f => rfl
        | ok x =>
          simp only
          cases TextParser.processLoop TextParser.loopFuel { p with buffer := x.1 } 0 with
          | error f => rfl
          | ok y =>
            obtain ⟨q, evs, m⟩ := y
            simp only [withHistory, Except.map]
            cases q.buffer.pop_front m with
            | error f => rfl
            | ok b =>
              simp only [ih]
              cases TextParser.addLoop fuel { q with buffer := b } input (u8 (k + x.2)) with
              | error f => rfl
              | ok z => simp [Except.map]
    · simp [Except.map]

end RR32
