import Verif.Proofs.NestedStep
import Verif.Props.Uninit

/-! # Callbacks that call back: what every call leaves intact -/

set_option autoImplicit false

namespace RR32

open Spec

/-! ## Faults that are mild: a null pointer, or a read behind an array -/

/-- The result is not a write out of bounds, a read of an indeterminate field, or a loop without end. -/
structure Mild {α : Type} (r : Res α) : Prop where
  fault : ∀ e, r = .error e → e = .nullDeref ∨ e = .oobRead

theorem mild_ok {α : Type} (a : α) : Mild (.ok a : Res α) := ⟨by intro e h; cases h⟩
theorem mild_oobRead {α : Type} : Mild (.error .oobRead : Res α) := ⟨by intro e h; cases h; exact Or.inr rfl⟩
theorem mild_null {α : Type} : Mild (.error .nullDeref : Res α) := ⟨by intro e h; cases h; exact Or.inl rfl⟩

theorem mild_bind {α β : Type} {x : Res α} {f : α → Res β} (hx : Mild x) (hf : ∀ a, x = .ok a → Mild (f a)) : Mild (x >>= f) := by
  cases x with
  | error e => exact ⟨fun e' h => hx.fault e' (by injection h with h; rw [h])⟩
  | ok a => exact hf a rfl

theorem mild_cstr (m : List Byte) : Mild (cstr m) := by
  induction m with
  | nil => exact mild_oobRead
  | cons c m ih =>
    rw [cstr]
    split
    · exact mild_ok _
    · exact mild_bind ih (fun _ _ => mild_ok _)

theorem mild_strlen (m : List Byte) : Mild (strlen m) := mild_bind (mild_cstr m) (fun _ _ => mild_ok _)

theorem strncpyBytes_mild (n : Nat) (m : List Byte) : Mild (strncpyBytes n m) ∧ ∀ l, strncpyBytes n m = .ok l → l.length = n := by
  induction n generalizing m with
  | zero => exact ⟨mild_ok _, fun l h => by cases h; rfl⟩
  | succ n ih =>
    cases m with
    | nil => exact ⟨mild_oobRead, fun l h => by cases h⟩
    | cons c m =>
      rw [strncpyBytes]
      split
      · exact ⟨mild_ok _, fun l h => by cases h; simp⟩
      · refine ⟨mild_bind (ih m).1 (fun _ _ => mild_ok _), fun l h => ?_⟩
        obtain ⟨r, h1, h2⟩ := bind_ok h
        cases h2
        simp [(ih m).2 r h1]

theorem strncpy_mild (d s : List Byte) (n : Nat) (h : n ≤ d.length) : Mild (strncpy d s n) ∧ ∀ l, strncpy d s n = .ok l → l.length = d.length := by
  constructor
  · refine mild_bind (strncpyBytes_mild n s).1 (fun l hl => ?_)
    unfold poke
    rw [if_pos (by rw [(strncpyBytes_mild n s).2 l hl]; exact h)]
    exact mild_ok _
  · intro l hl
    obtain ⟨x, h1, h2⟩ := bind_ok hl
    unfold poke at h2
    have := (strncpyBytes_mild n s).2 x h1
    rw [if_pos (by omega)] at h2
    cases h2
    simp
    omega

theorem mild_strncmpEq (n : Nat) (a b : List Byte) : Mild (strncmpEq n a b) := by
  induction n generalizing a b with
  | zero => exact mild_ok _
  | succ n ih =>
    cases a with
    | nil => exact mild_oobRead
    | cons x a =>
      cases b with
      | nil => exact mild_oobRead
      | cons y b =>
        rw [strncmpEq]
        split
        · exact mild_ok _
        · split
          · exact mild_ok _
          · exact ih a b

theorem mild_skipSpace (m : List Byte) : Mild (skipSpace m) := by
  induction m with
  | nil => exact mild_oobRead
  | cons c m ih =>
    rw [skipSpace]
    split
    · exact ih
    · exact mild_ok _

theorem mild_takeSign (m : List Byte) : Mild (takeSign m) := by
  cases m with
  | nil => exact mild_oobRead
  | cons c m =>
    rw [takeSign]
    split
    · exact mild_ok _
    · split <;> exact mild_ok _

theorem mild_takeHexPrefix (m : List Byte) : Mild (takeHexPrefix m) := by
  unfold takeHexPrefix
  repeat' split
  all_goals first | exact mild_ok _ | exact mild_oobRead

theorem mild_digits (base acc : Nat) (m : List Byte) : Mild (digits base acc m) := by
  induction m generalizing acc with
  | nil => exact mild_oobRead
  | cons c m ih =>
    unfold digits
    repeat' split
    all_goals first | exact mild_ok _ | exact ih _

theorem mild_strtoul16 (pf : Platform) (m : List Byte) : Mild (strtoul16 pf m) := by
  unfold strtoul16
  exact mild_bind (mild_skipSpace _) (fun _ _ => mild_bind (mild_takeSign _) (fun _ _ => mild_bind (mild_takeHexPrefix _) (fun _ _ =>
    mild_bind (mild_digits ..) (fun _ _ => mild_ok _))))

theorem mild_strtol10 (pf : Platform) (m : List Byte) : Mild (strtol10 pf m) := by
  unfold strtol10
  exact mild_bind (mild_skipSpace _) (fun _ _ => mild_bind (mild_takeSign _) (fun _ _ => mild_bind (mild_digits ..) (fun _ _ => mild_ok _)))

theorem mild_txSend (s : Station) (f : CanFrame) : Mild (s.txSend f) := by
  unfold Station.txSend
  split
  · exact mild_null
  · exact mild_ok _

theorem mild_handle (s : Station) (b : Bool) (f : CanFrame) : Mild (s.HandlePacket b f) := by
  rw [HandlePacket_eq]
  split
  · exact mild_null
  · split
    · exact mild_oobRead
    · exact mild_ok _

theorem mild_allFunctions (s : Station) (n : Nat) (f : CanFrame) (i : Byte) : Mild (s.allFunctionsLoop f n i) := by
  induction n generalizing f i with
  | zero => exact mild_ok _
  | succ n ih => exact mild_bind (mild_txSend ..) (fun _ _ => mild_bind (ih ..) (fun _ _ => mild_ok _))

theorem mild_read {p : Ptr} (h : p ≠ .uninit) : Mild p.read := by
  cases p with
  | uninit => exact absurd rfl h
  | null => exact mild_ok _
  | obj n => exact mild_ok _

theorem mild_print (l : Locomotive) : Mild l.print := by
  have hi : Mild l.info.print := by
    unfold ShortInfo.print
    split
    · exact mild_ok _
    · exact mild_bind (mild_cstr _) (fun _ _ => mild_ok _)
  unfold Locomotive.print
  refine mild_bind hi (fun _ _ => ?_)
  split
  · exact mild_bind (mild_cstr _) (fun _ _ => mild_ok _)
  · exact mild_ok _

theorem setName_mild (l : Locomotive) (name : List Byte) :
    Mild (l.setName name) ∧ ∀ l', l.setName name = .ok l' → 8 ≤ l'.protocol.length ∧ l'.info.name.length = 33 := by
  obtain ⟨h1, h2⟩ := strncpy_mild (List.replicate (kEngineNameLength + 1) 0#8) name kEngineNameLength (by simp)
  refine ⟨mild_bind h1 (fun _ _ => mild_ok _), fun l' h => ?_⟩
  obtain ⟨m, h3, h4⟩ := bind_ok h
  cases h4
  exact ⟨Nat.le_of_eq rfl, by show m.length = 33; rw [h2 m h3]; decide⟩

theorem consumeOn_mild (pf : Platform) (e : Locomotive) (s k v : BufferManager) (he : 8 ≤ e.protocol.length) :
    Mild (LocoConsumer.consumeOn pf e s k v) ∧ ∀ e', LocoConsumer.consumeOn pf e s k v = .ok e' → 8 ≤ e'.protocol.length := by
  have hp : Mild (e.setProtocolString v.mem) ∧ ∀ e', e.setProtocolString v.mem = .ok e' → 8 ≤ e'.protocol.length := by
    obtain ⟨h1, h2⟩ := strncpy_mild e.protocol v.mem Locomotive.kProtocolNameMaxLength he
    refine ⟨mild_bind h1 (fun _ _ => mild_ok _), fun e' h => ?_⟩
    obtain ⟨m, h3, h4⟩ := bind_ok h
    cases h4
    show 8 ≤ m.length
    rw [h2 m h3]
    exact he
  unfold LocoConsumer.consumeOn
  constructor
  · refine mild_bind (mild_strncmpEq ..) (fun b _ => ?_)
    split
    · refine mild_bind (mild_strncmpEq ..) (fun b _ => ?_)
      split
      · exact mild_bind (mild_strtoul16 ..) (fun _ _ => mild_ok _)
      · refine mild_bind (mild_strncmpEq ..) (fun b _ => ?_)
        split
        · exact hp.1
        · refine mild_bind (mild_strncmpEq ..) (fun b _ => ?_)
          split
          · exact mild_bind (mild_strtoul16 ..) (fun _ _ => mild_ok _)
          · exact mild_ok _
    · exact mild_ok _
  · intro e' h
    obtain ⟨b, -, h⟩ := bind_ok h
    split at h
    · obtain ⟨b, -, h⟩ := bind_ok h
      split at h
      · obtain ⟨b, -, h⟩ := bind_ok h
        cases h; exact he
      · obtain ⟨b, -, h⟩ := bind_ok h
        split at h
        · exact hp.2 e' h
        · obtain ⟨b, -, h⟩ := bind_ok h
          split at h
          · obtain ⟨b, -, h⟩ := bind_ok h
            cases h; exact he
          · cases h; exact he
    · cases h; exact he

theorem mild_consumeList (pf : Platform) (l : LocoListConsumer) (s k v : BufferManager) : Mild (l.consumeConfigData pf s k v) := by
  have hn : ∀ (i : ShortInfo) (name : List Byte), Mild (i.setName name) := by
    intro i name
    exact mild_bind (strncpy_mild (List.replicate (kEngineNameLength + 1) 0#8) name kEngineNameLength (by simp)).1 (fun _ _ => mild_ok _)
  unfold LocoListConsumer.consumeConfigData
  refine mild_bind (mild_strncmpEq ..) (fun b _ => ?_)
  split
  · split
    · exact mild_ok _
    · exact mild_bind (mild_cstr _) (fun _ _ => mild_bind (hn _ _) (fun _ _ => mild_ok _))
  · refine mild_bind (mild_strncmpEq ..) (fun b _ => ?_)
    split
    · refine mild_bind (mild_strncmpEq ..) (fun b _ => ?_)
      split
      · exact mild_bind (mild_bind (mild_strtol10 ..) (fun _ _ => mild_ok _)) (fun _ _ => mild_ok _)
      · exact mild_ok _
    · exact mild_bind (mild_cstr _) (fun _ _ => mild_ok _)

/-- The memory of the protocol names has the length of the array. -/
def Shaped (es : Engines) : Prop := ∀ e, 8 ≤ (es e).protocol.length

theorem shaped_set {es : Engines} (h : Shaped es) (n : Nat) (l : Locomotive) (hl : 8 ≤ l.protocol.length) : Shaped (es.set n l) := by
  intro e
  unfold Engines.set
  split
  · exact hl
  · exact h e

theorem callConsumer_mild (w : World) (c : ConsumerCall) (h : (w.consumers c.consumer).Initialised) (he : Shaped w.engines) :
    Mild (w.callConsumer c) ∧ ∀ v, w.callConsumer c = .ok v → Shaped v.engines := by
  unfold World.callConsumer
  simp only [show (w.logAll [.consumer c]).consumers = w.consumers from rfl]
  cases hc : w.consumers c.consumer with
  | app => exact ⟨mild_ok _, fun v h => by cases h; exact he⟩
  | loco l =>
    rw [hc] at h
    cases c.action with
    | consume s k v =>
      constructor
      · refine mild_bind (mild_bind (mild_read h.1) (fun r _ => ?_)) (fun _ _ => mild_ok _)
        cases r with
        | none => exact mild_ok _
        | some n => exact mild_bind (consumeOn_mild _ _ _ _ _ (he n)).1 (fun _ _ => mild_ok _)
      · intro v' h0
        obtain ⟨es, h1, h2⟩ := bind_ok h0
        cases h2
        clear h0
        obtain ⟨r, -, h1⟩ := bind_ok h1
        cases r with
        | none => cases h1; exact he
        | some n =>
          obtain ⟨e', h3, h1⟩ := bind_ok h1
          cases h1
          exact shaped_set he n e' ((consumeOn_mild _ _ _ _ _ (he n)).2 e' h3)
    | complete =>
      constructor
      · refine mild_bind (mild_bind (mild_read h.1) (fun r _ => ?_)) (fun _ _ => mild_ok _)
        cases r with
        | none => exact mild_ok _
        | some n => exact mild_bind (mild_print _) (fun _ _ => mild_bind (mild_read h.2) (fun _ _ => mild_ok _))
      · intro v' h0
        obtain ⟨es, h1, h2⟩ := bind_ok h0
        cases h2
        clear h0
        obtain ⟨r, -, h1⟩ := bind_ok h1
        cases r with
        | none => cases h1; exact he
        | some n =>
          obtain ⟨_, -, h1⟩ := bind_ok h1
          obtain ⟨_, -, h1⟩ := bind_ok h1
          cases h1
          exact shaped_set he n _ (he n)
    | aborted =>
      refine ⟨mild_bind (mild_bind (mild_read h.2) (fun _ _ => mild_ok _)) (fun _ _ => mild_ok _), fun v' h1 => ?_⟩
      obtain ⟨_, -, h1⟩ := bind_ok h1
      cases h1; exact he
  | list l =>
    rw [hc] at h
    cases c.action with
    | consume s k v =>
      refine ⟨mild_bind (mild_consumeList ..) (fun _ _ => mild_ok _), fun v' h1 => ?_⟩
      obtain ⟨_, -, h1⟩ := bind_ok h1
      cases h1; exact he
    | complete =>
      refine ⟨mild_bind (mild_bind (mild_read h) (fun _ _ => mild_ok _)) (fun _ _ => mild_ok _), fun v' h1 => ?_⟩
      obtain ⟨_, -, h1⟩ := bind_ok h1
      cases h1; exact he
    | aborted =>
      refine ⟨mild_bind (mild_bind (mild_read h) (fun _ _ => mild_ok _)) (fun _ _ => mild_ok _), fun v' h1 => ?_⟩
      obtain ⟨_, -, h1⟩ := bind_ok h1
      cases h1; exact he

end RR32
