import Verif.Path.Lemmas
/-
C11, C12: properties of path and account name sanitising.
-/
namespace Path
open Spec

/-- C11: sanitising any string in place never leaves the string's memory and
yields exactly the path with runs of slashes collapsed and the dot of every
'/.' replaced; bytes after the original terminator are untouched. -/
theorem c11_exact (s rest : Bytes) (hs : NoNul s) :
    ∃ junk, junk.length = s.length - (undot (collapse s)).length ∧
      fixpath (cstr s rest) = .ok (cstr (undot (collapse s)) (junk ++ rest)) := by
  obtain ⟨junk, h1, h2⟩ := fixLoop_ok s rest hs [] [] _ rfl
  simp only [show lastSlash [] = false from rfl, List.nil_append, List.length_nil, Nat.zero_add,
    Nat.add_zero, fp_spec] at h1 h2
  have hle : (undot (collapse s)).length ≤ s.length := by
    rw [← fp_spec]; exact fp_length _ _
  unfold fixpath
  rw [h2]
  simp only [Out.ok_bind]
  -- the terminator overwrites the first stale byte, or the old terminator
  cases junk with
  | nil =>
    refine ⟨[], h1, ?_⟩
    rw [List.append_nil, wr_append]; rfl
  | cons g junk =>
    refine ⟨junk ++ [0], by simpa using h1, ?_⟩
    have e : undot (collapse s) ++ g :: junk ++ 0 :: rest =
        undot (collapse s) ++ g :: (junk ++ 0 :: rest) := by simp
    rw [e, wr_append]
    simp [cstr]

/-- C11: the sanitised path is safe: no component after a slash starts with a
dot, no two slashes are adjacent. -/
theorem c11_safe (s : Bytes) : Safe (undot (collapse s)) := by
  rw [← fp_spec]; exact (fp_safe false s).2

/-- C11: a client-chosen name appended to "dir/" cannot name the directory
itself, its parent, or a hidden file: the first byte after the separating slash
is never '.'. -/
theorem c11_no_escape (dir name : Bytes) :
    ∃ name', undot (collapse (dir ++ c! '/' :: name)) =
        undot (collapse (dir ++ [c! '/'])) ++ name' ∧
      name'.head? ≠ some (c! '.') ∧ name'.head? ≠ some (c! '/') ∧ Safe name' := by
  obtain ⟨g1, g2⟩ := fp_safe true name
  refine ⟨fp true name, ?_, (g1 rfl).1, (g1 rfl).2, g2⟩
  rw [← fp_spec, ← fp_spec]
  exact fp_append_slash dir false name

/-- C11: sanitising twice is the same as once. -/
theorem c11_idempotent (s : Bytes) :
    undot (collapse (undot (collapse s))) = undot (collapse s) := by
  rw [← fp_spec, ← fp_spec]
  exact fp_id false _ (fp_safe false s).2 (by simp)

/-- C11: sanitising never lengthens the path. -/
theorem c11_length (s : Bytes) : (undot (collapse s)).length ≤ s.length := by
  rw [← fp_spec]; exact fp_length _ _

/-- C11: a path without double slashes and dot components is unchanged. -/
theorem c11_unchanged (s : Bytes) (h : Safe s) : undot (collapse s) = s := by
  rw [← fp_spec]; exact fp_id false s h (by simp)

/-- C12: a name with '@' is cut at the first '@'. -/
theorem c12_cut (s t rest : Bytes) (hs : NoNul s) (ha : c! '@' ∉ s) :
    fixname (cstr (s ++ c! '@' :: t) rest) = .ok (cstr s (t ++ 0 :: rest)) := by
  have := fixname_cut s t rest hs ha
  simpa [cstr] using this

/-- C12: a name without '@' is unchanged. -/
theorem c12_same (s rest : Bytes) (hs : NoNul s) (ha : c! '@' ∉ s) :
    fixname (cstr s rest) = .ok (cstr s rest) := fixname_same s rest hs ha

/-- C12: in every case the result is the longest prefix without '@'. -/
theorem c12_prefix (s rest : Bytes) (hs : NoNul s) :
    ∃ rest', fixname (cstr s rest) = .ok (cstr (s.takeWhile (· != c! '@')) rest') ∧
      c! '@' ∉ s.takeWhile (· != c! '@') := by
  have hno : ∀ (u : Bytes), c! '@' ∉ u.takeWhile (· != c! '@') := by
    intro u
    induction u with
    | nil => simp
    | cons a u ih =>
      rw [List.takeWhile_cons]
      split
      · next h => simp only [List.mem_cons, not_or]; exact ⟨fun e => by simp [← e] at h, ih⟩
      · simp
  rcases split_first (fun x => x == c! '@') s with h | ⟨pre, b, post, rfl, h1, h2⟩
  · have hn : c! '@' ∉ s := fun hm => by simpa using h _ hm
    refine ⟨rest, ?_, hno s⟩
    have : s.takeWhile (· != c! '@') = s := by
      exact takeWhile_all _ s (fun x hx => by have := h x hx; simpa using this)
    rw [this]; exact c12_same s rest hs hn
  · simp only [beq_iff_eq] at h2
    subst h2
    have hp : c! '@' ∉ pre := fun hm => by simpa using h1 _ hm
    refine ⟨post ++ 0 :: rest, ?_, hno _⟩
    have : (pre ++ c! '@' :: post).takeWhile (· != c! '@') = pre := by
      rw [List.takeWhile_append_of_pos]
      · simp
      · intro x hx; have := h1 x hx; simpa using this
    rw [this]
    exact c12_cut pre post rest hs.left hp

example : NoNul b!"/etc/ssl//../x" ∧
    fixpath (cstr b!"/etc/ssl//../x" []) = .ok (cstr b!"/etc/ssl/:./x" [0]) := by decide
example : Safe b!"certs/example.com" ∧ undot (collapse b!"certs/example.com") = b!"certs/example.com" := by
  refine ⟨?_, by decide⟩
  have := c11_safe b!"certs/example.com"
  exact this
example : fixname (cstr b!"joe@example" []) = .ok (cstr b!"joe" b!"example\x00") := by decide

end Path
