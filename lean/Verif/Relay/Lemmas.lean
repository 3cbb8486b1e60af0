import Verif.BaseLemmas
import Verif.Relay.Spec
/-
Lemmas about pending buffers and traces.
-/
namespace Relay
open Io
variable {F : Type} [DecidableEq F]

theorem readOf_append (f : F) (a b : List (Act F)) : readOf f (a ++ b) = readOf f a ++ readOf f b := by
  simp [readOf]
theorem wroteOf_append (f : F) (a b : List (Act F)) : wroteOf f (a ++ b) = wroteOf f a ++ wroteOf f b := by
  simp [wroteOf]
theorem readOf_nil (f : F) : readOf f [] = [] := rfl
theorem wroteOf_nil (f : F) : wroteOf f [] = [] := rfl
theorem readOf_cons (f : F) (a : Act F) (l : List (Act F)) : readOf f (a :: l) = a.readOn f ++ readOf f l := by
  simp [readOf]
theorem wroteOf_cons (f : F) (a : Act F) (l : List (Act F)) :
    wroteOf f (a :: l) = a.wroteOn f ++ wroteOf f l := by simp [wroteOf]

theorem always_nil (P : List (Act F) → Act F → Prop) : Always P [] := by
  intro pre a post h
  simp at h

theorem always_snoc (P : List (Act F) → Act F → Prop) (log : List (Act F)) (a : Act F) :
    Always P (log ++ [a]) ↔ Always P log ∧ P log a := by
  constructor
  · intro h
    refine ⟨fun pre b post e => h pre b (post ++ [a]) (by simp [e]), h log a [] rfl⟩
  · rintro ⟨h, ha⟩ pre b post e
    rcases List.eq_nil_or_concat post with rfl | ⟨q, c, rfl⟩
    · have := List.append_inj' (s₁ := log) (s₂ := pre) (t₁ := [a]) (t₂ := [b]) e rfl
      obtain ⟨rfl, h2⟩ := this
      cases h2
      exact ha
    · have e2 : log ++ [a] = (pre ++ b :: q) ++ [c] := by simpa using e
      have := List.append_inj' e2 rfl
      exact h pre b q this.1

theorem always_snoc2 (P : List (Act F) → Act F → Prop) (log : List (Act F)) (a b : Act F) :
    Always P (log ++ [a, b]) ↔ Always P log ∧ P log a ∧ P (log ++ [a]) b := by
  have : log ++ [a, b] = (log ++ [a]) ++ [b] := by simp
  rw [this, always_snoc, always_snoc, and_assoc]

/-- A usable buffer of `n` bytes. -/
def Buf.Ok (n : Nat) (b : Buf) : Prop := b.mem.length = n ∧ b.len ≤ n

theorem Buf.Ok.data_length {n : Nat} {b : Buf} (h : b.Ok n) : b.data.length = b.len := by
  have := h.1; have := h.2
  simp [Buf.data]; omega

/-- What a read into a usable buffer does. -/
theorem readInto_spec (n : Nat) (b : Buf) (src : Bytes) (ev : RdEv) (h : b.Ok n) :
    ∃ r b' src', readInto n b src ev = .ok (r, b', src') ∧
      ((r = .again ∧ b' = b ∧ src' = src) ∨ (r = .ended ∧ b' = b ∧ src' = src) ∨
       ∃ d, r = .got d ∧ d ≠ [] ∧ src = d ++ src' ∧ b'.data = b.data ++ d ∧ b'.Ok n) := by
  obtain ⟨h1, h2⟩ := h
  cases ev with
  | eintr => exact ⟨_, _, _, rfl, .inl ⟨rfl, rfl, rfl⟩⟩
  | eagain => exact ⟨_, _, _, rfl, .inl ⟨rfl, rfl, rfl⟩⟩
  | err e => exact ⟨_, _, _, rfl, .inr (.inl ⟨rfl, rfl, rfl⟩)⟩
  | data m =>
    simp only [readInto]
    have hd : (got src (n - b.len) m).length ≤ n - b.len := by simp [got]; omega
    have hsrc : src = got src (n - b.len) m ++ src.drop (got src (n - b.len) m).length := by
      simp only [got, List.length_take]
      generalize min (n - b.len) (m + 1) = k
      rcases Nat.le_total k src.length with h | h
      · rw [Nat.min_eq_left h, List.take_append_drop]
      · rw [Nat.min_eq_right h, List.drop_length, List.take_of_length_le h, List.append_nil]
    generalize got src (n - b.len) m = d at hd hsrc
    by_cases h0 : d.length = 0
    · rw [if_pos h0]
      exact ⟨_, _, _, rfl, .inr (.inl ⟨rfl, rfl, rfl⟩)⟩
    · rw [if_neg h0, copyN_full b.mem d b.len d.length (Nat.le_refl _) (by omega)]
      refine ⟨_, _, _, rfl, .inr (.inr ⟨d, rfl, ?_, hsrc, ?_, ?_, ?_⟩)⟩
      · rintro rfl; simp at h0
      · simp only [Buf.data, List.take_length]
        have hl : (b.mem.take b.len).length = b.len := by simp; omega
        rw [← List.append_assoc, List.take_append_of_le_length (by simp; omega),
          List.take_of_length_le (by simp; omega)]
      · simp; omega
      · simp; omega

/-- What a write from a usable buffer does. -/
theorem writeFrom_spec (n : Nat) (b : Buf) (ev : WrEv) (h : b.Ok n) :
    ∃ r b', writeFrom b ev = .ok (r, b') ∧
      ((r = .again ∧ b' = b) ∨ (r = .failed ∧ b' = b) ∨
       ∃ d, r = .put d ∧ d ≠ [] ∧ b.data = d ++ b'.data ∧ b'.Ok n) := by
  obtain ⟨h1, h2⟩ := h
  cases ev with
  | eintr p => exact ⟨_, _, rfl, .inl ⟨rfl, rfl⟩⟩
  | eagain p => exact ⟨_, _, rfl, .inl ⟨rfl, rfl⟩⟩
  | err e => exact ⟨_, _, rfl, .inr (.inl ⟨rfl, rfl⟩)⟩
  | zero => exact ⟨_, _, rfl, .inr (.inl ⟨rfl, rfl⟩)⟩
  | data m =>
    simp only [writeFrom]
    rw [if_neg (by omega)]
    by_cases h0 : (put b.mem b.len m).length = 0
    · rw [if_pos h0]
      exact ⟨_, _, rfl, .inr (.inl ⟨rfl, rfl⟩)⟩
    · rw [if_neg h0]
      have hl : (put b.mem b.len m).length = min b.len (m + 1) := by simp [put]; omega
      simp only [consume, memmove]
      rw [if_pos (by omega)]
      refine ⟨_, _, rfl, .inr (.inr ⟨_, rfl, ?_, ?_, ?_, ?_⟩)⟩
      · intro e; simp [e] at h0
      · rw [hl]
        simp only [Buf.data, put, List.take_zero, List.nil_append, Nat.zero_add]
        rw [List.take_append_of_le_length (by simp; omega),
          List.take_of_length_le (l := List.take _ (List.drop _ _)) (by simp; omega)]
        have e1 : b.mem.take b.len = (b.mem.take b.len).take (min b.len (m + 1)) ++
          (b.mem.take b.len).drop (min b.len (m + 1)) := (List.take_append_drop _ _).symm
        rw [e1, List.take_take, List.drop_take]
        congr 2
        omega
      · simp; omega
      · simp; omega

/-- Induction on a list from its end. -/
theorem snoc_ind {α : Type} {P : List α → Prop} (h0 : P []) (h1 : ∀ l a, P l → P (l ++ [a])) (l : List α) : P l := by
  have : ∀ n, ∀ l : List α, l.length = n → P l := by
    intro n
    induction n with
    | zero => intro l h; rw [List.length_eq_zero_iff.mp h]; exact h0
    | succ n ih =>
      intro l h
      rcases List.eq_nil_or_concat l with rfl | ⟨q, a, rfl⟩
      · exact h0
      · rw [List.concat_eq_append] at h ⊢
        exact h1 q a (ih q (by simpa using h))
  exact this _ l rfl

theorem readOn_read (f g : F) (d : Bytes) : Act.readOn f (.read g d) = if g = f then d else [] := rfl
theorem readOn_ended (f g : F) : Act.readOn f (.ended g) = [] := rfl
theorem readOn_write (f g : F) (d : Bytes) : Act.readOn f (.write g d) = [] := rfl
theorem readOn_failed (f g : F) : Act.readOn f (.failed g) = [] := rfl
theorem readOn_close (f g : F) : Act.readOn f (.close g) = [] := rfl
theorem readOn_alarm (f : F) (b : Bool) : Act.readOn f (.alarm b) = [] := rfl
theorem wroteOn_read (f g : F) (d : Bytes) : Act.wroteOn f (.read g d) = [] := rfl
theorem wroteOn_ended (f g : F) : Act.wroteOn f (.ended g) = [] := rfl
theorem wroteOn_write (f g : F) (d : Bytes) : Act.wroteOn f (.write g d) = if g = f then d else [] := rfl
theorem wroteOn_failed (f g : F) : Act.wroteOn f (.failed g) = [] := rfl
theorem wroteOn_close (f g : F) : Act.wroteOn f (.close g) = [] := rfl
theorem readOn_sig (f : F) (c : Byte) : Act.readOn f (.sig c) = [] := rfl
theorem wroteOn_sig (f : F) (c : Byte) : Act.wroteOn f (.sig c) = [] := rfl
theorem readOn_eng (f : F) (e : EngAct) : Act.readOn f (.eng e) = [] := rfl
theorem wroteOn_eng (f : F) (e : EngAct) : Act.wroteOn f (.eng e) = [] := rfl
theorem wroteOn_alarm (f : F) (b : Bool) : Act.wroteOn f (.alarm b) = [] := rfl

macro "logsimp" : tactic => `(tactic| simp only [readOf_append, wroteOf_append, readOf_cons, wroteOf_cons,
  readOf_nil, wroteOf_nil, List.append_nil, List.nil_append, readOn_read, readOn_ended, readOn_write, readOn_failed,
  readOn_close, readOn_alarm, wroteOn_read, wroteOn_ended, wroteOn_write, wroteOn_failed, wroteOn_close, wroteOn_alarm, readOn_sig, wroteOn_sig,
  readOn_eng, wroteOn_eng,
  reduceCtorEq, ↓reduceIte, always_snoc, List.mem_append, List.mem_cons, List.not_mem_nil, or_false, List.append_assoc, List.cons_append, always_snoc2])

end Relay
