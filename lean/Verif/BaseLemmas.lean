import Verif.Base
/-
Lemmas about the shared vocabulary.
-/

theorem cstr_cons (b : Byte) (s rest : Bytes) : cstr (b :: s) rest = b :: cstr s rest := rfl
theorem cstr_nil (rest : Bytes) : cstr [] rest = 0 :: rest := rfl

@[simp] theorem rd_cons_zero (b : Byte) (m : Bytes) : rd (b :: m) 0 = .ok b := rfl
@[simp] theorem rd_cons_succ (b : Byte) (m : Bytes) (i : Nat) : rd (b :: m) (i+1) = rd m i := by
  simp [rd]
@[simp] theorem rd_nil (i : Nat) : rd [] i = .ub := by simp [rd]

theorem rd_lt (m : Bytes) (i : Nat) (h : i < m.length) : rd m i = .ok m[i] := by
  simp [rd, h]

theorem rd_append_left (m m' : Bytes) (i : Nat) (h : i < m.length) : rd (m ++ m') i = rd m i := by
  simp [rd, List.getElem?_append_left h]

theorem rd_append_right (m m' : Bytes) (i : Nat) (h : m.length ≤ i) :
    rd (m ++ m') i = rd m' (i - m.length) := by
  simp [rd, List.getElem?_append_right h]

theorem NoNul.tail {b : Byte} {s : Bytes} (h : NoNul (b :: s)) : NoNul s :=
  fun x hx => h x (by simp [hx])
theorem NoNul.head {b : Byte} {s : Bytes} (h : NoNul (b :: s)) : b ≠ 0 := h b (by simp)
theorem NoNul.nil : NoNul [] := fun _ h => absurd h (by simp)
theorem NoNul.cons {b : Byte} {s : Bytes} (hb : b ≠ 0) (h : NoNul s) : NoNul (b :: s) := by
  intro x hx
  rcases List.mem_cons.mp hx with rfl | hx
  · exact hb
  · exact h x hx
theorem NoNul.append {s t : Bytes} (h : NoNul s) (h' : NoNul t) : NoNul (s ++ t) := by
  intro x hx
  rcases List.mem_append.mp hx with hx | hx
  · exact h x hx
  · exact h' x hx
theorem NoNul.left {s t : Bytes} (h : NoNul (s ++ t)) : NoNul s :=
  fun x hx => h x (List.mem_append.mpr (.inl hx))
theorem NoNul.right {s t : Bytes} (h : NoNul (s ++ t)) : NoNul t :=
  fun x hx => h x (List.mem_append.mpr (.inr hx))

theorem wr_append (pre post : Bytes) (z b : Byte) :
    wr (pre ++ z :: post) pre.length b = .ok (pre ++ b :: post) := by
  simp [wr]

theorem wr_lt (buf : Bytes) (i : Nat) (b : Byte) (h : i < buf.length) :
    wr buf i b = .ok (buf.set i b) := by simp [wr, h]

theorem cstrOf_cstr (s rest : Bytes) (hs : NoNul s) : cstrOf (cstr s rest) = .ok s := by
  induction s with
  | nil => simp [cstr, cstrOf]
  | cons b s ih => rw [cstr_cons, cstrOf, if_neg hs.head, ih hs.tail]; rfl

/-- `copyN` of a whole prefix of the source over part of the destination. -/
theorem copyN_ok (pre mid post src tl : Bytes) (h : mid.length = src.length) :
    copyN (pre ++ (mid ++ post)) pre.length (src ++ tl) src.length =
      .ok (pre ++ (src ++ post)) := by
  induction src generalizing pre mid with
  | nil =>
    cases mid with
    | nil => simp [copyN]
    | cons a b => simp at h
  | cons b src ih =>
    cases mid with
    | nil => simp at h
    | cons a mid =>
      simp only [List.cons_append, List.length_cons, copyN, wr_append, Out.ok_bind]
      have := ih (pre ++ [b]) mid (by simpa using h)
      simpa using this

/-- Splitting a list at the first element satisfying a predicate. -/
theorem split_first (p : Byte → Bool) (s : Bytes) :
    (∀ b ∈ s, p b = false) ∨
    ∃ pre b post, s = pre ++ b :: post ∧ (∀ x ∈ pre, p x = false) ∧ p b = true := by
  induction s with
  | nil => left; simp
  | cons a s ih =>
    by_cases h : p a = true
    · right; exact ⟨[], a, s, rfl, by simp, h⟩
    · have ha : p a = false := by simpa using h
      rcases ih with h' | ⟨pre, b, post, rfl, h1, h2⟩
      · left; intro b hb
        rcases List.mem_cons.mp hb with rfl | hb
        · exact ha
        · exact h' b hb
      · right; refine ⟨a :: pre, b, post, rfl, ?_, h2⟩
        intro x hx
        rcases List.mem_cons.mp hx with rfl | hx
        · exact ha
        · exact h1 x hx

/-- The exact result of copying `n` bytes to offset `p`. -/
theorem copyN_full (x src : Bytes) (p n : Nat) (hn : n ≤ src.length) (h : p + n ≤ x.length) :
    copyN x p src n = .ok (x.take p ++ (src.take n ++ x.drop (p + n))) := by
  have e : x = x.take p ++ ((x.drop p).take n ++ x.drop (p + n)) := by
    rw [← List.drop_drop, List.take_append_drop, List.take_append_drop]
  have e2 : src = src.take n ++ src.drop n := (List.take_append_drop _ _).symm
  have hl : (x.take p).length = p := by simp; omega
  have hl2 : (src.take n).length = n := by simp; omega
  have hl3 : ((x.drop p).take n).length = n := by simp; omega
  have := copyN_ok (x.take p) ((x.drop p).take n) (x.drop (p + n)) (src.take n) (src.drop n)
    (by rw [hl3, hl2])
  rw [hl, hl2, ← e, ← e2] at this
  exact this
