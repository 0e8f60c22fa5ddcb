import Verif.Model.Consumers
import Verif.Spec.Engine
import Verif.Proofs.Numbers
import Verif.Proofs.TextParser
import Verif.Props.Locomotive

/-! # The consumers on the tokens a text parser hands over -/

set_option autoImplicit false

namespace RR32

open Spec

theorem text_append_zeros_any (s : List Byte) (n : Nat) : text (s ++ List.replicate n 0#8) = text s := by
  induction s with
  | nil => cases n <;> rfl
  | cons c s ih =>
    by_cases hc : c = 0#8
    · subst hc; rfl
    · rw [List.cons_append, text_cons hc, text_cons hc, ih]

theorem text_ofc (cap : Nat) (t : List Byte) : text (ofc cap t).mem = text t := text_append_zeros_any t _

theorem terminated_ofc {cap : Nat} {t : List Byte} (h : HasNul cap t) : Terminated (ofc cap t).mem := by
  rcases h with h | h
  · exact List.mem_append_right _ (by rw [List.mem_replicate]; exact ⟨by omega, rfl⟩)
  · exact List.mem_append_left _ h

theorem terminated_lit (s : List Byte) : Terminated (s ++ [0#8]) := by simp [Terminated]

theorem text_lit (s : List Byte) (h : NoNul s) : text (s ++ [0#8]) = s := text_append_zero s [] h

theorem readable_ofc {cap : Nat} {t : List Byte} (h : t.length ≤ cap) (n : Nat) (hn : n ≤ cap) : Readable n (ofc cap t).mem :=
  Or.inl (by rw [ofc.mem_length h]; exact hn)

theorem take_text (t : List Byte) : (text t).take t.length = text t := List.take_of_length_le (text_length_le t)

/-- `strncmp(expected, token.data(), token.length()) == 0`. -/
theorem strncmp_expected (cap : Nat) (t e : List Byte) (h : t.length ≤ cap) (he : NoNul e) :
    strncmpEq (ofc cap t).len (e ++ [0#8]) (ofc cap t).mem = .ok (decide (Matches e t)) := by
  show strncmpEq t.length _ _ = _
  rw [strncmpEq_text _ _ _ (terminated_readable (terminated_lit e) _) (readable_ofc h _ h), text_lit e he, text_ofc, take_text]
  congr 1
  rw [decide_eq_decide, Matches]
  exact eq_comm

/-- `token.strncmp(expected)`. -/
theorem strncmp_token (cap : Nat) (t e : List Byte) (h : t.length ≤ cap) (he : NoNul e) :
    (ofc cap t).strncmp (e ++ [0#8]) = .ok (decide (Matches e t)) := by
  show strncmpEq t.length _ _ = _
  rw [strncmpEq_text _ _ _ (readable_ofc h _ h) (terminated_readable (terminated_lit e) _), text_lit e he, text_ofc, take_text]
  congr 1

/-- For tokens without NUL: being a prefix. -/
theorem Matches_iff (e t : List Byte) (ht : NoNul t) : Matches e t ↔ t <+: e := by
  rw [Matches, text_of_noNul t ht, List.prefix_iff_eq_take]

/-- A token that passes for a name starts like it. -/
theorem Matches_head {e t : List Byte} {c : Byte} (h : Matches e (c :: t)) (he : NoNul e) (hne : e ≠ []) : e.head? = some c := by
  cases e with
  | nil => exact absurd rfl hne
  | cons x e =>
    by_cases hc : c = 0#8
    · subst hc
      rw [Matches, text_zero] at h
      simp at h
    · rw [Matches, text_cons hc] at h
      simp at h
      rw [h.1]
      rfl

/-! ## `strtoul` and `strtol` read no further than the NUL -/

theorem skipSpace_ok {m : List Byte} (h : Terminated m) : ∃ r, skipSpace m = .ok r ∧ Terminated r := by
  induction m with
  | nil => cases h
  | cons c m ih =>
    by_cases hc : isSpace c = true
    · rw [skipSpace, if_pos hc]
      apply ih
      rcases List.mem_cons.mp h with h | h
      · rw [← h] at hc; exact absurd hc (by decide)
      · exact h
    · rw [skipSpace, if_neg hc]; exact ⟨_, rfl, h⟩

theorem takeSign_ok {m : List Byte} (h : Terminated m) : ∃ b r, takeSign m = .ok (b, r) ∧ Terminated r := by
  cases m with
  | nil => cases h
  | cons c m =>
    have ht : ∀ x, c = x → x ≠ 0#8 → Terminated m := by
      intro x hx hn
      rcases List.mem_cons.mp h with h | h
      · exact absurd (hx.symm.trans h.symm) hn
      · exact h
    rw [takeSign]
    split
    · next hc => exact ⟨_, _, rfl, ht _ hc (by decide)⟩
    · split
      · next hc => exact ⟨_, _, rfl, ht _ hc (by decide)⟩
      · exact ⟨_, _, rfl, h⟩

theorem takeHexPrefix_ok {m : List Byte} (h : Terminated m) : ∃ r, takeHexPrefix m = .ok r ∧ Terminated r := by
  cases m with
  | nil => cases h
  | cons c m =>
    by_cases hc : c = ch '0'
    · have hm : Terminated m := by
        rcases List.mem_cons.mp h with h | h
        · rw [← h] at hc; exact absurd hc (by decide)
        · exact h
      cases m with
      | nil => cases hm
      | cons x m =>
        by_cases hx : x = ch 'x' ∨ x = ch 'X'
        · have hm2 : Terminated m := by
            rcases List.mem_cons.mp hm with h | h
            · rw [← h] at hx; exact absurd hx (by decide)
            · exact h
          cases m with
          | nil => cases hm2
          | cons d m =>
            simp only [takeHexPrefix, hc, if_true, hx]
            cases hv : digitVal d with
            | none => exact ⟨_, rfl, hc ▸ h⟩
            | some v =>
              simp only
              split
              · exact ⟨_, rfl, hm2⟩
              · exact ⟨_, rfl, hc ▸ h⟩
        · simp only [takeHexPrefix, hc, if_true, hx, if_false]
          exact ⟨_, rfl, hc ▸ h⟩
    · simp only [takeHexPrefix, hc, if_false]
      exact ⟨_, rfl, h⟩

theorem digits_ok {m : List Byte} (h : Terminated m) (base acc : Nat) : ∃ v, digits base acc m = .ok v := by
  induction m generalizing acc with
  | nil => cases h
  | cons c m ih =>
    unfold digits
    cases hv : digitVal c with
    | none => exact ⟨_, rfl⟩
    | some d =>
      simp only
      split
      · apply ih
        rcases List.mem_cons.mp h with h | h
        · rw [← h] at hv; cases hv
        · exact h
      · exact ⟨_, rfl⟩

theorem strtoul16_ok (pf : Platform) {m : List Byte} (h : Terminated m) : ∃ v, strtoul16 pf m = .ok v := by
  obtain ⟨a, ha, ta⟩ := skipSpace_ok h
  obtain ⟨b, c, hb, tb⟩ := takeSign_ok ta
  obtain ⟨d, hd, td⟩ := takeHexPrefix_ok tb
  obtain ⟨v, hv⟩ := digits_ok td 16 0
  simp only [strtoul16, ha, hb, hd, hv, bind, Except.bind]
  exact ⟨_, rfl⟩

theorem strtol10_ok (pf : Platform) {m : List Byte} (h : Terminated m) : ∃ v, strtol10 pf m = .ok v := by
  obtain ⟨a, ha, ta⟩ := skipSpace_ok h
  obtain ⟨b, c, hb, tb⟩ := takeSign_ok ta
  obtain ⟨v, hv⟩ := digits_ok tb 10 0
  simp only [strtol10, ha, hb, hv, bind, Except.bind]
  exact ⟨_, rfl⟩

/-! ## LocoConsumer -/

/-- The entry as `LocoConsumer` gets it. -/
def consumeEntry (pf : Platform) (eng : Locomotive) (e : Entry) : Res Locomotive :=
  LocoConsumer.consumeOn pf eng (ofc 11 e.sect) (ofc 11 e.key) (ofc 26 e.value)

theorem noNul_names : NoNul (str "lokomotive") ∧ NoNul (str "uid") ∧ NoNul (str "typ") ∧ NoNul (str "adresse") ∧ NoNul (str "loknamen") ∧
    NoNul (str "numloks") ∧ NoNul (str "wert") := by decide

/-- What an entry does to an engine. -/
theorem consumeEntry_eq (pf : Platform) (eng : Locomotive) (e : Entry) (he : e.Fits) :
    consumeEntry pf eng e =
      if SetsUid e then (strtoul16 pf (ofc 26 e.value).mem).bind (fun v => .ok { eng with data := { eng.data with uid := BitVec.ofNat 32 v } })
      else if SetsProtocol e then eng.setProtocolString (ofc 26 e.value).mem
      else if SetsAddress e then
        (strtoul16 pf (ofc 26 e.value).mem).bind (fun v => .ok { eng with data := { eng.data with address := ⟨BitVec.ofNat 32 v⟩ } })
      else .ok eng := by
  obtain ⟨n1, n2, n3, n4, -⟩ := noNul_names
  unfold consumeEntry LocoConsumer.consumeOn kEngineResult LocoConsumer.kEngineKeyUid LocoConsumer.kEngineKeyProtocol LocoConsumer.kEngineKeyAddress lit
  rw [strncmp_expected 11 e.sect _ he.sect n1, strncmp_expected 11 e.key _ he.key n2, strncmp_expected 11 e.key _ he.key n3,
    strncmp_expected 11 e.key _ he.key n4]
  simp only [SetsUid, SetsProtocol, SetsAddress, IsLoco, LocomotiveData.setUid, LocomotiveData.setAddress]
  simp only [bind, Except.bind]
  by_cases h1 : Matches (str "lokomotive") e.sect <;> by_cases h2 : Matches (str "uid") e.key <;>
    by_cases h3 : Matches (str "typ") e.key <;> by_cases h4 : Matches (str "adresse") e.key <;> simp [h1, h2, h3, h4]

end RR32
