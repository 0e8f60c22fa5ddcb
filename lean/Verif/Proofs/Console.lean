import Verif.Model.Console
import Verif.Spec.Console
import Verif.Proofs.Decimal
import Verif.Proofs.Receive

/-! # Reading back printed numbers -/

set_option autoImplicit false

namespace RR32

open Spec (hexDigit readDigits readHex readDec after value hexAfter decAfter words readDump)

/-- The characters that numbers are printed with. -/
def numberChar (c : Byte) : Bool :=
  (48#8 ≤ c && c ≤ 57#8) || (65#8 ≤ c && c ≤ 70#8) || (97#8 ≤ c && c ≤ 102#8) || c == 120#8 || c == 88#8 || c == 45#8

theorem numberChar_word (c : Byte) (h : numberChar c = true) :
    c ≠ 32#8 ∧ c ≠ 44#8 ∧ c ≠ 10#8 ∧ c ≠ 39#8 ∧ (c != 32#8 && c != 44#8 && c != 10#8) = true := by
  revert c h
  decide +kernel

theorem hexDigit_char (upper : Bool) (d : Nat) (h : d < 16) :
    hexDigit (ch (if upper then (Nat.digitChar d).toUpper else Nat.digitChar d)) = some d := by
  revert upper
  have key : ∀ d : Fin 16, ∀ upper : Bool, hexDigit (ch (if upper then (Nat.digitChar d.val).toUpper else Nat.digitChar d.val)) = some d.val := by decide
  exact key ⟨d, h⟩

theorem numberChar_hex (upper : Bool) (d : Nat) (h : d < 16) :
    numberChar (ch (if upper then (Nat.digitChar d).toUpper else Nat.digitChar d)) = true := by
  revert upper
  have key : ∀ d : Fin 16, ∀ upper : Bool, numberChar (ch (if upper then (Nat.digitChar d.val).toUpper else Nat.digitChar d.val)) = true := by decide
  exact key ⟨d, h⟩

theorem hexPrint_step (upper : Bool) (n : Nat) :
    hexPrint upper n = (if n < 16 then [] else hexPrint upper (n / 16)) ++
      [ch (if upper then (Nat.digitChar (n % 16)).toUpper else Nat.digitChar (n % 16))] := by
  unfold hexPrint
  rw [Nat.toDigits_eq_if (by decide)]
  by_cases h : n < 16
  · simp [h, Nat.mod_eq_of_lt h]
  · simp [h]

theorem hexPrint_ne_nil (upper : Bool) (n : Nat) : hexPrint upper n ≠ [] := by
  rw [hexPrint_step]; simp

theorem hexPrint_chars (upper : Bool) (n : Nat) : ∀ c ∈ hexPrint upper n, numberChar c = true := by
  induction n using Nat.strongRecOn with
  | ind n ih =>
    intro c hc
    rw [hexPrint_step] at hc
    rcases List.mem_append.mp hc with hc | hc
    · split at hc
      · simp at hc
      · exact ih (n / 16) (by omega) c hc
    · rw [List.mem_singleton.mp hc]
      exact numberChar_hex upper _ (Nat.mod_lt _ (by decide))

theorem readDigits_append (b : Nat) (l m : List Byte) (acc : Nat) :
    readDigits b acc (l ++ m) = (readDigits b acc l).bind fun a => readDigits b a m := by
  induction l generalizing acc with
  | nil => rfl
  | cons c cs ih =>
    simp only [List.cons_append, readDigits]
    split
    · split
      · exact ih _
      · rfl
    · rfl

theorem readDigits_hexText (upper : Bool) (n : Nat) : readDigits 16 0 (hexPrint upper n) = some n := by
  induction n using Nat.strongRecOn with
  | ind n ih =>
    rw [hexPrint_step, readDigits_append]
    have hd := hexDigit_char upper (n % 16) (Nat.mod_lt _ (by decide))
    have hl : n % 16 < 16 := Nat.mod_lt _ (by decide)
    split
    · next h =>
      simp only [readDigits, hd, hl, if_true, Option.bind_some]
      congr 1; omega
    · rw [ih (n / 16) (by omega)]
      simp only [readDigits, hd, hl, if_true, Option.bind_some]
      congr 1; omega

theorem readDigits_zeros (b k : Nat) (hb : 0 < b) (t : List Byte) :
    readDigits b 0 (List.replicate k (ch '0') ++ t) = readDigits b 0 t := by
  induction k with
  | zero => rfl
  | succ k ih =>
    rw [List.replicate_succ, List.cons_append]
    have h0 : hexDigit (ch '0') = some 0 := by decide
    simp only [readDigits, h0, hb, if_true]
    simpa using ih

theorem hexZeros_zero (upper : Bool) (w : Nat) : hexZeros upper w 0 = List.replicate (w - 1) (ch '0') ++ [ch '0'] := by
  have h : hexPrint upper 0 = [ch '0'] := by cases upper <;> decide
  simp [hexZeros, h]

theorem hexZeros_pos (upper : Bool) (w n : Nat) (h : n ≠ 0) :
    hexZeros upper w n = ch '0' :: ch (if upper then 'X' else 'x') ::
      (List.replicate (w - 2 - (hexPrint upper n).length) (ch '0') ++ hexPrint upper n) := by
  simp [hexZeros, h]

theorem hexZeros_ne_nil (upper : Bool) (w n : Nat) : hexZeros upper w n ≠ [] := by
  intro h
  simp [hexZeros, hexPrint_ne_nil] at h

theorem readHex_plain (t : List Byte) (hne : t ≠ []) (hx : ∀ c ∈ t, c ≠ 120#8 ∧ c ≠ 88#8) :
    readHex t = readDigits 16 0 t := by
  match t, hne with
  | [c], _ => rfl
  | c :: x :: rest, _ =>
    unfold readHex
    have := hx x (by simp)
    simp [this.1, this.2]

/-- A printed hexadecimal number is read back. -/
theorem readHex_hexZeros (upper : Bool) (w n : Nat) : readHex (hexZeros upper w n) = some n := by
  by_cases h : n = 0
  · subst h
    rw [hexZeros_zero, readHex_plain _ (by simp) (by
      intro c hc
      simp only [List.mem_append, List.mem_replicate, List.mem_singleton] at hc
      have : c = ch '0' := by rcases hc with hc | hc
                              · exact hc.2
                              · exact hc
      subst this; decide), readDigits_zeros 16 _ (by decide)]
    decide
  · rw [hexZeros_pos upper w n h]
    unfold readHex
    have hx : ch '0' = 48#8 ∧ (ch (if upper then 'X' else 'x') = 120#8 ∨ ch (if upper then 'X' else 'x') = 88#8) := by
      cases upper <;> decide
    dsimp only
    rw [if_pos hx, if_neg (by simp [hexPrint_ne_nil]), readDigits_zeros 16 _ (by decide), readDigits_hexText]

theorem hexZeros_chars (upper : Bool) (w n : Nat) : ∀ c ∈ hexZeros upper w n, numberChar c = true := by
  intro c hc
  unfold hexZeros at hc
  simp only [List.mem_append, List.mem_replicate] at hc
  rcases hc with (hc | hc) | hc
  · split at hc
    · simp at hc
    · cases upper <;> simp at hc <;> rcases hc with rfl | rfl <;> decide
  · rw [hc.2]; decide
  · exact hexPrint_chars upper n c hc

theorem decText_ne_nil (n : Nat) : decText n ≠ [] := by
  intro h
  have := decText_length_pos n
  rw [h] at this
  simp at this

theorem decText_chars (n : Nat) : ∀ c ∈ decText n, numberChar c = true ∧ c ≠ 45#8 := by
  induction n using Nat.strongRecOn with
  | ind n ih =>
    intro c hc
    have digit : ∀ d, d < 10 → numberChar (BitVec.ofNat 8 (0x30 + d)) = true ∧ BitVec.ofNat 8 (0x30 + d) ≠ 45#8 := by
      intro d hd
      match d, hd with
      | 0, _ | 1, _ | 2, _ | 3, _ | 4, _ | 5, _ | 6, _ | 7, _ | 8, _ | 9, _ => decide
    rw [decText] at hc
    split at hc
    · next h => rw [List.mem_singleton.mp hc]; exact digit n h
    · next h =>
      rcases List.mem_append.mp hc with hc | hc
      · exact ih (n / 10) (by omega) c hc
      · rw [List.mem_singleton.mp hc]; exact digit _ (Nat.mod_lt _ (by decide))

theorem readDigits_decText (n : Nat) : readDigits 10 0 (decText n) = some n := by
  induction n using Nat.strongRecOn with
  | ind n ih =>
    have digit : ∀ d, d < 10 → hexDigit (BitVec.ofNat 8 (0x30 + d)) = some d := by
      intro d hd
      match d, hd with
      | 0, _ | 1, _ | 2, _ | 3, _ | 4, _ | 5, _ | 6, _ | 7, _ | 8, _ | 9, _ => decide
    rw [decText]
    split
    · next h => simp [readDigits, digit n h, h]
    · next h =>
      have hl : n % 10 < 10 := Nat.mod_lt _ (by decide)
      rw [readDigits_append, ih (n / 10) (by omega)]
      simp only [Option.bind_some, readDigits, digit _ hl, hl, if_true]
      congr 1; omega

theorem readDec_decText (n : Nat) : readDec (decText n) = some (n : Int) := by
  have hc := decText_chars n
  have hr := readDigits_decText n
  have hne := decText_ne_nil n
  generalize decText n = t at *
  match t, hne with
  | c :: rest, _ =>
    unfold readDec
    dsimp only
    rw [if_neg (hc c (by simp)).2, hr]
    rfl

theorem readDec_intText (n : U32) : readDec (intText n) = some n.toInt := by
  unfold intText
  have hn : n.toNat < 2 ^ 32 := n.isLt
  split
  · next h =>
    rw [readDec_decText]
    congr 1
    rw [BitVec.toInt_eq_toNat_cond, if_pos (by omega)]
  · next h =>
    have hm : ch '-' = 45#8 := by decide
    unfold readDec
    simp only [hm, if_true, decText_ne_nil, if_false, readDigits_decText, Option.map_some]
    congr 1
    rw [BitVec.toInt_eq_toNat_cond, if_neg (by omega)]
    simp only [Nat.reducePow] at *
    omega

theorem intText_chars (n : U32) : ∀ c ∈ intText n, numberChar c = true := by
  intro c hc
  unfold intText at hc
  split at hc
  · exact (decText_chars _ c hc).1
  · rcases List.mem_cons.mp hc with rfl | hc
    · decide
    · exact (decText_chars _ c hc).1

theorem intText_ne_nil (n : U32) : intText n ≠ [] := by
  unfold intText
  split
  · exact decText_ne_nil _
  · simp

/-! ## Finding a label -/

/-- No label can begin in a text, whatever follows it. -/
def misses (label : List Byte) : List Byte → Bool
  | [] => true
  | c :: cs => (label.zip (c :: cs)).any (fun p => p.1 != p.2) && misses label cs

theorem isPrefixOf_of_differ (l y t : List Byte) (h : (l.zip y).any (fun p => p.1 != p.2) = true) :
    l.isPrefixOf (y ++ t) = false := by
  induction l generalizing y with
  | nil => simp at h
  | cons a l ih =>
    match y with
    | [] => simp at h
    | b :: y =>
      simp only [List.cons_append, List.isPrefixOf]
      by_cases hab : a = b
      · simp only [List.zip_cons_cons, List.any_cons, hab, bne_self_eq_false, Bool.false_or] at h
        simp [ih y h]
      · simp [hab]

theorem after_misses (label x t : List Byte) (h : misses label x = true) : after label (x ++ t) = after label t := by
  induction x with
  | nil => rfl
  | cons c cs ih =>
    simp only [misses, Bool.and_eq_true] at h
    have hp := isPrefixOf_of_differ label (c :: cs) t h.1
    simp only [List.cons_append] at hp ⊢
    rw [after, hp]
    simpa using ih h.2

theorem misses_absent (a : Byte) (l x : List Byte) (h : a ∉ x) : misses (a :: l) x = true := by
  induction x with
  | nil => rfl
  | cons c cs ih =>
    simp only [List.mem_cons, not_or] at h
    simp [misses, ih h.2, h.1]

theorem after_here (label t : List Byte) (h : label ≠ []) : after label (label ++ t) = some t := by
  match label, h with
  | c :: cs, _ =>
    rw [List.cons_append, after, ← List.cons_append, if_pos (by simp)]
    simp

/-- The word at the front of a text: what `value` reads behind its label. -/
theorem word_eq (k : Nat) (w r : List Byte) (hw : ∀ c ∈ w, numberChar c = true) (hne : w ≠ [])
    (hr : r = [] ∨ ∃ c cs, r = c :: cs ∧ (c = 32#8 ∨ c = 44#8 ∨ c = 10#8)) :
    ((List.replicate k (ch ' ') ++ (w ++ r)).dropWhile (fun c => c == 32#8)).takeWhile
      (fun c => c != 32#8 && c != 44#8 && c != 10#8) = w := by
  have hsp : ch ' ' = 32#8 := by decide
  have hd : (List.replicate k (ch ' ') ++ (w ++ r)).dropWhile (fun c => c == 32#8) = w ++ r := by
    induction k with
    | zero =>
      match w, hne with
      | c :: cs, _ =>
        have := (numberChar_word c (hw c (by simp))).1
        simp [this]
    | succ k ih => rw [List.replicate_succ, List.cons_append, List.dropWhile_cons_of_pos (by simp [hsp]), ih]
  rw [hd, List.takeWhile_append_of_pos (fun c hc => (numberChar_word c (hw c hc)).2.2.2.2)]
  rcases hr with rfl | ⟨c, cs, rfl, hc⟩
  · simp
  · rw [List.takeWhile_cons_of_neg]
    · simp
    · rcases hc with rfl | rfl | rfl <;> decide

theorem misses_append (l x y : List Byte) (hx : misses l x = true) (hy : misses l y = true) : misses l (x ++ y) = true := by
  have zip_any : ∀ (l x y : List Byte), (l.zip x).any (fun p => p.1 != p.2) = true →
      (l.zip (x ++ y)).any (fun p => p.1 != p.2) = true := by
    intro l
    induction l with
    | nil => intro x y h; simp at h
    | cons a l ih =>
      intro x y h
      match x with
      | [] => simp at h
      | b :: x =>
        simp only [List.cons_append, List.zip_cons_cons, List.any_cons, Bool.or_eq_true] at h ⊢
        rcases h with h | h
        · exact .inl h
        · exact .inr (ih x y h)
  induction x with
  | nil => exact hy
  | cons c cs ih =>
    simp only [misses, Bool.and_eq_true] at hx
    simp only [List.cons_append, misses, Bool.and_eq_true]
    exact ⟨zip_any l (c :: cs) y hx.1, ih hx.2⟩

/-- What may follow a number. -/
def Stops (r : List Byte) : Prop := r = [] ∨ ∃ c cs, r = c :: cs ∧ (c = 32#8 ∨ c = 44#8 ∨ c = 10#8)

/-- The word behind a label, if the label does not begin earlier. -/
theorem value_eq (label pre : List Byte) (k : Nat) (w r : List Byte) (hl : label ≠ []) (hm : misses label pre = true)
    (hw : ∀ c ∈ w, numberChar c = true) (hne : w ≠ []) (hr : Stops r) :
    value label (pre ++ (label ++ (List.replicate k (ch ' ') ++ (w ++ r)))) = some w := by
  unfold value
  rw [after_misses _ _ _ hm, after_here _ _ hl, Option.map_some, word_eq k w r hw hne hr]

theorem hexAfter_zeros (label : String) (pre : List Byte) (upper : Bool) (w n : Nat) (r : List Byte) (hl : str label ≠ [])
    (hm : misses (str label) pre = true) (hr : Stops r) :
    hexAfter label (pre ++ (str label ++ (hexZeros upper w n ++ r))) = some n := by
  have := value_eq (str label) pre 0 (hexZeros upper w n) r hl hm (hexZeros_chars upper w n) (hexZeros_ne_nil upper w n) hr
  simp only [List.replicate_zero, List.nil_append] at this
  rw [hexAfter, this, Option.bind_some, readHex_hexZeros]

theorem hexAfter_spaces (label : String) (pre : List Byte) (w n : Nat) (r : List Byte) (hl : str label ≠ [])
    (hm : misses (str label) pre = true) (hr : Stops r) :
    hexAfter label (pre ++ (str label ++ (hexSpaces w n ++ r))) = some n := by
  have := value_eq (str label) pre (w - (hexZeros false 0 n).length) (hexZeros false 0 n) r hl hm (hexZeros_chars false 0 n)
    (hexZeros_ne_nil false 0 n) hr
  unfold hexSpaces
  rw [List.append_assoc, hexAfter, this, Option.bind_some, readHex_hexZeros]

theorem decAfter_dec (label : String) (pre : List Byte) (n : Nat) (r : List Byte) (hl : str label ≠ [])
    (hm : misses (str label) pre = true) (hr : Stops r) :
    decAfter label (pre ++ (str label ++ (decText n ++ r))) = some (n : Int) := by
  have := value_eq (str label) pre 0 (decText n) r hl hm (fun c hc => (decText_chars n c hc).1) (decText_ne_nil n) hr
  simp only [List.replicate_zero, List.nil_append] at this
  rw [decAfter, this, Option.bind_some, readDec_decText]

theorem decAfter_int (label : String) (pre : List Byte) (n : U32) (r : List Byte) (hl : str label ≠ [])
    (hm : misses (str label) pre = true) (hr : Stops r) :
    decAfter label (pre ++ (str label ++ (intText n ++ r))) = some n.toInt := by
  have := value_eq (str label) pre 0 (intText n) r hl hm (intText_chars n) (intText_ne_nil n) hr
  simp only [List.replicate_zero, List.nil_append] at this
  rw [decAfter, this, Option.bind_some, readDec_intText]

/-! ## Characters of printed numbers -/

/-- Not an upper case letter. -/
def notUpper (c : Byte) : Bool := c < 65#8 || 90#8 < c

theorem hexPrint_lower (n : Nat) : ∀ c ∈ hexPrint false n, notUpper c = true := by
  induction n using Nat.strongRecOn with
  | ind n ih =>
    intro c hc
    rw [hexPrint_step] at hc
    rcases List.mem_append.mp hc with hc | hc
    · split at hc
      · simp at hc
      · exact ih (n / 16) (by omega) c hc
    · rw [List.mem_singleton.mp hc]
      have key : ∀ d : Fin 16, notUpper (ch (Nat.digitChar d.val)) = true := by decide
      exact key ⟨n % 16, Nat.mod_lt _ (by decide)⟩

theorem hexZeros_lower (w n : Nat) : ∀ c ∈ hexZeros false w n, notUpper c = true := by
  intro c hc
  unfold hexZeros at hc
  simp only [List.mem_append, List.mem_replicate] at hc
  rcases hc with (hc | hc) | hc
  · split at hc
    · simp at hc
    · simp at hc; rcases hc with rfl | rfl <;> decide
  · rw [hc.2]; decide
  · exact hexPrint_lower n c hc

theorem hexSpaces_lower (w n : Nat) : ∀ c ∈ hexSpaces w n, notUpper c = true := by
  intro c hc
  unfold hexSpaces at hc
  simp only [List.mem_append, List.mem_replicate] at hc
  rcases hc with hc | hc
  · rw [hc.2]; decide
  · exact hexZeros_lower 0 n c hc

theorem decText_lower (n : Nat) : ∀ c ∈ decText n, notUpper c = true := by
  induction n using Nat.strongRecOn with
  | ind n ih =>
    intro c hc
    have digit : ∀ d : Fin 10, notUpper (BitVec.ofNat 8 (0x30 + d.val)) = true := by decide
    rw [decText] at hc
    split at hc
    · next h => rw [List.mem_singleton.mp hc]; exact digit ⟨n, h⟩
    · next h =>
      rcases List.mem_append.mp hc with hc | hc
      · exact ih (n / 10) (by omega) c hc
      · rw [List.mem_singleton.mp hc]; exact digit ⟨n % 10, Nat.mod_lt _ (by decide)⟩

theorem intText_lower (n : U32) : ∀ c ∈ intText n, notUpper c = true := by
  intro c hc
  unfold intText at hc
  split at hc
  · exact decText_lower _ c hc
  · rcases List.mem_cons.mp hc with rfl | hc
    · decide
    · exact decText_lower _ c hc

/-- A label that begins with an upper case letter does not begin in a text without one. -/
theorem misses_lower (a : Byte) (l x : List Byte) (ha : notUpper a = false) (h : ∀ c ∈ x, notUpper c = true) :
    misses (a :: l) x = true := by
  apply misses_absent
  intro hm
  rw [h a hm] at ha
  cases ha

/-- A label that begins with a character that numbers do not have does not begin in a number. -/
theorem misses_number (a : Byte) (l x : List Byte) (ha : numberChar a = false) (h : ∀ c ∈ x, numberChar c = true) :
    misses (a :: l) x = true := by
  apply misses_absent
  intro hm
  rw [h a hm] at ha
  cases ha

/-! ## Dumps -/

theorem printed_eq (d : Data) (h : d.dlc.toNat ≤ 9) : d.printed = .ok (d.bytes.take d.dlc.toNat) := by
  have key : ∀ (m : List Byte) (n : Nat), n ≤ m.length →
      (List.range n).mapM (fun i => peek m i) = (.ok (m.take n) : Res (List Byte)) := by
    intro m n hn
    induction n with
    | zero => simp [pure, Except.pure]
    | succ n ih =>
      have hlt : n < m.length := by omega
      rw [List.range_succ, List.mapM_append, ih (by omega)]
      have hp : peek m n = .ok m[n] := by unfold peek; rw [List.getElem?_eq_getElem hlt]
      rw [List.take_succ_eq_append_getElem hlt]
      simp only [List.mapM_cons, List.mapM_nil, hp, bind, Except.bind, pure, Except.pure]
  exact key d.bytes d.dlc.toNat (by simpa [Data.bytes] using h)

theorem words_word (w t : List Byte) (h : ∀ c ∈ w, c ≠ 32#8) (x : List Byte) (xs : List (List Byte)) (ht : words t = x :: xs) :
    words (w ++ t) = (w ++ x) :: xs := by
  induction w with
  | nil => simpa using ht
  | cons c cs ih =>
    simp only [List.cons_append, words]
    rw [if_neg (h c (by simp)), ih (fun c hc => h c (by simp [hc]))]

/-- The words of a dump are the printed bytes. -/
theorem words_dump (bytes : List Byte) :
    words (bytes.flatMap fun b => ch ' ' :: hexZeros false 2 b.toNat) = [] :: bytes.map fun b => hexZeros false 2 b.toNat := by
  induction bytes with
  | nil => rfl
  | cons b bs ih =>
    have hsp : ch ' ' = 32#8 := by decide
    rw [List.flatMap_cons, List.cons_append, words, if_pos hsp,
      words_word (hexZeros false 2 b.toNat) _ (fun c hc => (numberChar_word c (hexZeros_chars _ _ _ c hc)).1) [] _ ih]
    simp

theorem readDump_dump (bytes : List Byte) :
    readDump (bytes.flatMap fun b => ch ' ' :: hexZeros false 2 b.toNat) = some bytes := by
  unfold readDump
  rw [words_dump]
  dsimp only
  induction bytes with
  | nil => rfl
  | cons b bs ih =>
    rw [List.map_cons, List.mapM_cons, ih]
    simp [readHex_hexZeros, b.isLt]

end RR32
