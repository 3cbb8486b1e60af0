import Verif.BaseLemmas
import Verif.Path.Model
import Verif.Path.Spec
namespace Path
open Spec

/-- The loop as a list function; `sl` says that the last output byte is '/'. -/
def fp : Bool → Bytes → Bytes
  | _, [] => []
  | sl, b :: s =>
    if sl = true ∧ b = c! '/' then fp true s
    else
      let ch := if sl = true ∧ b = c! '.' then c! ':' else b
      ch :: fp (ch == c! '/') s

theorem fp_length (sl : Bool) (s : Bytes) : (fp sl s).length ≤ s.length := by
  induction s generalizing sl with
  | nil => simp [fp]
  | cons b s ih =>
    rw [fp]
    split
    · have := ih true; simp; omega
    · simp only [List.length_cons]; have := ih ((if sl = true ∧ b = c! '.' then c! ':' else b) == c! '/'); omega

theorem fp_noNul (sl : Bool) (s : Bytes) (hs : NoNul s) : NoNul (fp sl s) := by
  induction s generalizing sl with
  | nil => exact .nil
  | cons b s ih =>
    rw [fp]
    split
    · exact ih _ hs.tail
    · refine .cons ?_ (ih _ hs.tail)
      split
      · decide
      · exact hs.head

def lastSlash (d : Bytes) : Bool := d.getLast? == some (c! '/')

theorem afterSlash_ok (d m : Bytes) : afterSlash (d ++ m) d.length = .ok (lastSlash d) := by
  rcases List.eq_nil_or_concat d with rfl | ⟨d', b, rfl⟩
  · rfl
  · have h1 : (d' ++ [b]).length = d'.length + 1 := by simp
    rw [List.concat_eq_append, h1]
    unfold afterSlash
    have h2 : rd (d' ++ b :: m) d'.length = .ok b := by
      rw [rd_append_right _ _ _ (Nat.le_refl _)]; simp
    simp [h2, lastSlash]

/-- Loop invariant: `d` has been written, `gap` is stale, `s` remains. -/
theorem fixLoop_ok (s rest : Bytes) (hs : NoNul s) (d gap : Bytes) (k : Nat)
    (hk : k = (cstr s rest).length) :
    ∃ junk, junk.length = gap.length + s.length - (fp (lastSlash d) s).length ∧
      fixLoop k (d ++ (gap ++ cstr s rest)) (d.length + gap.length) d.length =
        .ok (d ++ fp (lastSlash d) s ++ junk ++ 0 :: rest, d.length + (fp (lastSlash d) s).length) := by
  induction s generalizing d gap k with
  | nil =>
    refine ⟨gap, by simp [fp], ?_⟩
    subst hk
    simp only [cstr, List.nil_append, List.length_cons, fixLoop]
    have : rd (d ++ (gap ++ 0 :: rest)) (d.length + gap.length) = .ok 0 := by
      rw [rd_append_right _ _ _ (by omega), rd_append_right _ _ _ (by omega)]; simp
    rw [this]; simp [fp]
  | cons b s ih =>
    subst hk
    have hlen : (cstr (b :: s) rest).length = (cstr s rest).length + 1 := by simp [cstr]
    have hrd : rd (d ++ (gap ++ cstr (b :: s) rest)) (d.length + gap.length) = .ok b := by
      rw [rd_append_right _ _ _ (by omega), rd_append_right _ _ _ (by omega), cstr_cons]; simp
    rw [hlen, fixLoop, hrd]
    simp only [if_neg hs.head, afterSlash_ok]
    by_cases hsl : lastSlash d = true ∧ b = c! '/'
    · have hb : ¬ (b = c! '.') := by rw [hsl.2]; decide
      obtain ⟨junk, h1, h2⟩ := ih hs.tail d (gap ++ [b]) _ rfl
      have e : fp (lastSlash d) (b :: s) = fp (lastSlash d) s := by
        rw [fp, if_pos hsl, hsl.1]
      refine ⟨junk, ?_, ?_⟩
      · rw [e]; simp at h1 ⊢; omega
      · have hb2 : ¬ (c! '/' = c! '.') := by decide
        rw [e, hsl.1, hsl.2]
        rw [hsl.1, hsl.2] at h2
        simp only [hb2, and_false, if_false, and_self, if_true, cstr_cons]
        simp only [List.append_assoc, List.length_append, List.length_cons,
          List.length_nil, List.cons_append, List.nil_append] at h2
        simpa [Nat.add_assoc] using h2
    · have hne : ¬ (lastSlash d = true ∧ (if lastSlash d = true ∧ b = c! '.' then c! ':' else b) = c! '/') := by
        rintro ⟨h1, h2⟩
        split at h2
        · revert h2; decide
        · exact hsl ⟨h1, h2⟩
      simp only [if_neg hne]
      generalize hch : (if lastSlash d = true ∧ b = c! '.' then c! ':' else b) = ch
      have e : fp (lastSlash d) (b :: s) = ch :: fp (ch == c! '/') s := by
        rw [fp, if_neg hsl]; simp only [hch]
      have hl : lastSlash (d ++ [ch]) = (ch == c! '/') := by simp [lastSlash]
      -- the slot written: either the first stale byte or the byte just read
      cases gap with
      | nil =>
        obtain ⟨junk, h1, h2⟩ := ih hs.tail (d ++ [ch]) [] _ rfl
        rw [hl] at h1 h2
        refine ⟨junk, ?_, ?_⟩
        · rw [e]; simp at h1 ⊢; omega
        · simp only [List.nil_append, cstr_cons, wr_append, e]
          simp only [List.append_assoc, List.length_append, List.length_cons,
            List.length_nil, List.cons_append, List.nil_append, Nat.add_zero] at h2 ⊢
          rw [show d.length + 1 = d.length + (0 + 1) by omega, h2]
          congr 2; omega
      | cons g gap =>
        obtain ⟨junk, h1, h2⟩ := ih hs.tail (d ++ [ch]) (gap ++ [b]) _ rfl
        rw [hl] at h1 h2
        refine ⟨junk, ?_, ?_⟩
        · rw [e]; simp at h1 ⊢; omega
        · simp only [List.cons_append, cstr_cons, wr_append, e]
          simp only [List.append_assoc, List.length_append, List.length_cons,
            List.length_nil, List.cons_append, List.nil_append] at h2 ⊢
          rw [show d.length + (gap.length + 1) + 1 = d.length + (0 + 1) + (gap.length + (0 + 1)) by omega,
            show d.length + 1 = d.length + (0 + 1) by omega, h2]
          congr 2; omega

/-- The list function is the specification. -/
theorem fp_spec (s : Bytes) : fp false s = undot (collapse s) := by
  suffices h : ∀ (s : Bytes), fp false s = undot (collapse s) ∧
      (c! '/' :: fp true s = undot (collapse (c! '/' :: s))) from (h s).1
  intro s
  induction s with
  | nil => simp [fp, collapse, undot]
  | cons b s ih =>
    have base : fp false (b :: s) = undot (collapse (b :: s)) := by
      simp only [fp, Bool.false_eq_true, false_and, if_false]
      by_cases hb : b = c! '/'
      · subst hb
        simpa using ih.2
      · have hbf : (b == c! '/') = false := by simpa using hb
        rw [hbf, ih.1]
        cases s with
        | nil => simp [collapse, undot]
        | cons a s =>
          rw [collapse, if_neg (fun h => hb h.1)]
          cases hc : collapse (a :: s) with
          | nil => simp [undot]
          | cons x xs => rw [undot, if_neg (fun h => hb h.1)]
    refine ⟨base, ?_⟩
    by_cases hb : b = c! '/'
    · subst hb
      rw [fp, if_pos ⟨rfl, rfl⟩, collapse, if_pos ⟨rfl, rfl⟩]
      exact ih.2
    · have hn : ¬ ((true : Bool) = true ∧ b = c! '/') := fun h => hb h.2
      have hn' : ¬ (c! '/' = c! '/' ∧ b = c! '/') := fun h => hb h.2
      rw [fp, if_neg hn, collapse, if_neg hn']
      have hcol : ∃ x, collapse (b :: s) = b :: x := by
        cases s with
        | nil => exact ⟨[], rfl⟩
        | cons a s => exact ⟨collapse (a :: s), by rw [collapse, if_neg (fun h => hb h.1)]⟩
      obtain ⟨x, hx⟩ := hcol
      by_cases hd : b = c! '.'
      · subst hd
        rw [hx, undot, if_pos ⟨rfl, rfl⟩]
        have h1 := base
        rw [fp, hx] at h1
        simp only [Bool.false_eq_true, false_and, if_false] at h1
        have h2 : undot (c! '.' :: x) = c! '.' :: undot x := by
          cases x with
          | nil => rfl
          | cons y x => rw [undot, if_neg (fun h => absurd h.1 (by decide))]
        rw [h2] at h1
        have e1 : (c! '.' == c! '/') = false := by decide
        rw [e1] at h1
        simp only [and_self, if_true, List.cons.injEq, true_and] at h1 ⊢
        have e2 : (c! ':' == c! '/') = false := by decide
        rw [e2]; exact h1
      · have h1 := base
        rw [fp, hx] at h1
        simp only [Bool.false_eq_true, false_and, if_false] at h1
        rw [hx, undot, if_neg (fun h => hd h.2), ← h1]
        simp [hd]

/-- The list function only produces safe paths. -/
theorem fp_safe (sl : Bool) (s : Bytes) :
    (sl = true → (fp sl s).head? ≠ some (c! '.') ∧ (fp sl s).head? ≠ some (c! '/')) ∧
    Safe (fp sl s) := by
  induction s generalizing sl with
  | nil =>
    refine ⟨fun _ => by simp [fp], ?_⟩
    intro pre post h
    simp [fp] at h
  | cons b s ih =>
    rw [fp]
    by_cases hsl : sl = true ∧ b = c! '/'
    · rw [if_pos hsl]
      exact ⟨fun _ => (ih true).1 rfl, (ih true).2⟩
    · rw [if_neg hsl]
      simp only []
      generalize hch : (if sl = true ∧ b = c! '.' then c! ':' else b) = ch
      obtain ⟨i1, i2⟩ := ih (ch == c! '/')
      refine ⟨fun h => ?_, ?_⟩
      · subst h
        simp only [true_and] at hsl hch
        simp only [List.head?_cons, ne_eq, Option.some.injEq]
        by_cases hd : b = c! '.'
        · rw [if_pos hd] at hch; subst hch; decide
        · rw [if_neg hd] at hch; subst hch; exact ⟨hd, hsl⟩
      · intro pre post h
        cases pre with
        | nil =>
          simp only [List.nil_append, List.cons.injEq] at h
          rw [← h.2]
          exact i1 (by simp [h.1])
        | cons a pre =>
          simp only [List.cons_append, List.cons.injEq] at h
          exact i2 pre post h.2

/-- A safe path is left alone. -/
theorem fp_id (sl : Bool) (s : Bytes) (hs : Safe s)
    (h : sl = true → s.head? ≠ some (c! '.') ∧ s.head? ≠ some (c! '/')) : fp sl s = s := by
  induction s generalizing sl with
  | nil => rfl
  | cons b s ih =>
    have hsl : ¬ (sl = true ∧ b = c! '/') := fun g => (h g.1).2 (by simp [g.2])
    have hd : ¬ (sl = true ∧ b = c! '.') := fun g => (h g.1).1 (by simp [g.2])
    rw [fp, if_neg hsl]
    simp only [if_neg hd, List.cons.injEq, true_and]
    refine ih (b == c! '/') ?_ ?_
    · intro pre post e
      exact hs (b :: pre) post (by rw [e]; rfl)
    · intro hb
      exact hs [] s (by simpa using hb)

theorem fp_append_slash (d : Bytes) (sl : Bool) (t : Bytes) :
    fp sl (d ++ c! '/' :: t) = fp sl (d ++ [c! '/']) ++ fp true t := by
  induction d generalizing sl with
  | nil => cases sl <;> simp [fp]
  | cons b d ih =>
    simp only [List.cons_append, fp]
    split
    · exact ih true
    · rw [ih]; rfl

theorem takeWhile_all (p : Byte → Bool) (s : Bytes) (h : ∀ x ∈ s, p x = true) :
    s.takeWhile p = s := by
  induction s with
  | nil => rfl
  | cons a s ih =>
    rw [List.takeWhile_cons, if_pos (h a (by simp)), ih (fun x hx => h x (by simp [hx]))]

theorem fixname_cut (s t rest : Bytes) (hs : NoNul s) (ha : c! '@' ∉ s) :
    fixname (s ++ c! '@' :: t ++ 0 :: rest) = .ok (s ++ 0 :: t ++ 0 :: rest) := by
  induction s with
  | nil => simp [fixname]
  | cons b s ih =>
    simp only [List.mem_cons, not_or] at ha
    simp only [List.cons_append, fixname, if_neg hs.head]
    rw [if_neg (fun e => ha.1 e.symm)]
    have := ih hs.tail ha.2
    simp only [List.append_assoc, List.cons_append] at this
    simp [this]

theorem fixname_same (s rest : Bytes) (hs : NoNul s) (ha : c! '@' ∉ s) :
    fixname (cstr s rest) = .ok (cstr s rest) := by
  induction s with
  | nil => simp [fixname, cstr]
  | cons b s ih =>
    simp only [List.mem_cons, not_or] at ha
    rw [cstr_cons, fixname, if_neg hs.head, if_neg (fun e => ha.1 e.symm), ih hs.tail ha.2]; rfl

end Path
