import Verif.Str.Lemmas
/-
C27, C28, C66: properties of the string helpers. `rest` is whatever lies in
memory after the string; the results do not depend on it and reading it would
be undefined behaviour when `rest = []`.
-/
namespace Str
open Spec

/-- C27: length. -/
theorem c27_len (s rest : Bytes) (hs : NoNul s) : str_len (cstr s rest) = .ok s.length :=
  str_len_ok s rest hs

/-- C27: prefix test. -/
theorem c27_start (s t rest rest' : Bytes) (hs : NoNul s) (ht : NoNul t) :
    str_start (cstr s rest) (cstr t rest') = .ok (decide (t <+: s)) :=
  str_start_ok s t rest rest' hs ht

/-- C27: first occurrence. -/
theorem c27_chr (s rest : Bytes) (c : Byte) (hs : NoNul s) :
    ∃ n, str_chr (cstr s rest) c = .ok n ∧ FirstOcc s c n := by
  by_cases hc : c ∈ s
  · obtain h | ⟨pre, b, post, rfl, h1, h2⟩ := split_first (fun x => x == c) s
    · have := h c hc; simp at this
    · simp only [beq_iff_eq] at h2
      subst h2
      have hp : b ∉ pre := fun hm => by simpa using h1 _ hm
      refine ⟨pre.length, ?_, ?_⟩
      · have : cstr (pre ++ b :: post) rest = pre ++ b :: cstr post rest := by simp [cstr]
        rw [this]; exact str_chr_hit pre _ b hs.left hp
      · refine ⟨.inl ⟨by simp, by simp⟩, fun i hi e => hp ?_⟩
        rw [List.getElem?_append_left hi] at e
        exact List.mem_of_getElem? e
  · exact ⟨_, str_chr_free s rest c hs hc, .inr rfl, fun i _ e => hc (List.mem_of_getElem? e)⟩

/-- C27: last occurrence. -/
theorem c27_rchr (s rest : Bytes) (c : Byte) (hs : NoNul s) :
    ∃ n, str_rchr (cstr s rest) c = .ok n ∧ LastOcc s c n := by
  obtain ⟨r, e, h⟩ := rchrLoop_ok s rest c hs 0 none
  unfold str_rchr
  rw [e]
  rcases h with ⟨h1, rfl⟩ | ⟨n, rfl, h2, h3⟩
  · exact ⟨_, rfl, .inr ⟨by simp, h1⟩⟩
  · exact ⟨_, rfl, .inl ⟨by simpa using h2, by simpa using h3⟩⟩

/-- C27: comparison. -/
theorem c27_diff (s t rest rest' : Bytes) (hs : NoNul s) (ht : NoNul t) :
    str_diff (cstr s rest) (cstr t rest') = .ok (diff s t) ∧ (diff s t = 0 ↔ s = t) :=
  ⟨str_diff_ok s t rest rest' hs ht, diff_zero s t hs ht⟩

/-- C27: copy. The destination holds the string and its terminator, bytes after
that are untouched, the return value is the length. -/
theorem c27_copy (t rest mid tail : Bytes) (ht : NoNul t) (hm : mid.length = t.length + 1) :
    str_copy (mid ++ tail) (cstr t rest) = .ok (cstr t tail, t.length) := by
  have hne : mid ≠ [] := by rintro rfl; simp at hm
  have e := List.dropLast_concat_getLast hne
  have := copyLoop_ok [] mid.dropLast t rest tail (mid.getLast hne) ht (by simp [hm])
  rw [str_copy, ← e]
  simpa [cstr] using this

/-- C27: copying into a destination shorter than the string and its terminator
is undefined behaviour: the caller must provide the room. -/
theorem c27_copy_needs_room (dst t rest : Bytes) (ht : NoNul t) (h : dst.length ≤ t.length) :
    str_copy dst (cstr t rest) = .ub := copyLoop_ub dst t rest 0 ht (by omega)

/-- C28: comparison of `len` bytes. -/
theorem c28_diffb (s t x y : Bytes) (h : s.length = t.length) :
    case_diffb (s ++ x) s.length (t ++ y) = .ok (diff (lcs s) (lcs t)) := by
  simpa [case_diffb] using diffbLoop_ok s t x y h

/-- C28: `len`-byte comparison against a shorter NUL-terminated string, the way
the SMTP front end uses it: it stops at the first difference and so reads
nothing past the terminator, provided the first `len` bytes of `s` hold no NUL. -/
theorem c28_diffb_short (s t x rest : Bytes) (hs : NoNul s) (ht : NoNul t)
    (hl : t.length < s.length) :
    ∃ d, case_diffb (s ++ x) s.length (cstr t rest) = .ok d ∧ d ≠ 0 := by
  induction s generalizing t with
  | nil => simp at hl
  | cons a s ih =>
    have ha : lc a ≠ 0 := fun h => hs.head ((lc_zero a).mp h)
    have ha' : (lc a).toNat ≠ 0 := fun h => ha (UInt8.toNat_inj.mp (by simpa using h))
    have key : ∀ (b : Byte), lc a ≠ lc b → ((lc a).toNat : Int) - (lc b).toNat ≠ 0 := by
      intro b hab
      have : (lc a).toNat ≠ (lc b).toNat := fun e => hab (UInt8.toNat_inj.mp e)
      omega
    cases t with
    | nil =>
      refine ⟨((lc a).toNat : Int) - (lc 0).toNat, ?_, key 0 (by rw [(lc_zero 0).mpr rfl]; exact ha)⟩
      simp [case_diffb, cstr, diffbLoop, fold_eq_lc, (lc_zero 0).mpr rfl, ha]
    | cons b t =>
      by_cases hab : lc a = lc b
      · obtain ⟨d, e, hd⟩ := ih t hs.tail ht.tail (by simpa using hl)
        refine ⟨d, ?_, hd⟩
        simp only [case_diffb, Int.toNat_natCast] at e
        simp [case_diffb, cstr_cons, diffbLoop, fold_eq_lc, hab, e]
      · refine ⟨_, ?_, key b hab⟩
        simp [case_diffb, cstr_cons, diffbLoop, fold_eq_lc, hab]

/-- C28: string comparison, zero exactly for strings equal up to case. -/
theorem c28_diffs (s t rest rest' : Bytes) (hs : NoNul s) (ht : NoNul t) :
    case_diffs (cstr s rest) (cstr t rest') = .ok (diff (lcs s) (lcs t)) :=
  case_diffs_ok s t rest rest' hs ht

/-- C28: a zero result means equality up to case, for strings without NUL. -/
theorem c28_zero_iff (s t : Bytes) (hs : NoNul s) (ht : NoNul t) :
    diff (lcs s) (lcs t) = 0 ↔ lcs s = lcs t := by
  have h : ∀ {u : Bytes}, NoNul u → NoNul (lcs u) := by
    intro u hu b hb
    obtain ⟨a, ha, rfl⟩ := List.mem_map.mp hb
    exact fun e => hu a ha ((lc_zero a).mp e)
  exact diff_zero _ _ (h hs) (h ht)

/-- C28: prefix tests. -/
theorem c28_startb (s t x rest : Bytes) (ht : NoNul t) :
    case_startb (s ++ x) s.length (cstr t rest) = .ok (decide (lcs t <+: lcs s)) :=
  case_startb_ok s t x rest ht

theorem c28_starts (s t rest rest' : Bytes) (hs : NoNul s) (ht : NoNul t) :
    case_starts (cstr s rest) (cstr t rest') = .ok (decide (lcs t <+: lcs s)) :=
  case_starts_ok s t rest rest' hs ht

/-- C28: lowering in place. -/
theorem c28_lowerb (s x : Bytes) : case_lowerb (s ++ x) s.length = .ok (lcs s ++ x) :=
  case_lowerb_ok s x

theorem c28_lowers (s rest : Bytes) (hs : NoNul s) :
    case_lowers (cstr s rest) = .ok (cstr (lcs s) rest) := case_lowers_ok s rest hs

attribute [local instance] decForallByte in
/-- C28: the folding changes exactly A-Z, and maps them to a-z. -/
theorem c28_fold (b : Byte) :
    (b ∈ b!"ABCDEFGHIJKLMNOPQRSTUVWXYZ" → fold b = b + 32 ∧ fold b ∈ b!"abcdefghijklmnopqrstuvwxyz") ∧
    (b ∉ b!"ABCDEFGHIJKLMNOPQRSTUVWXYZ" → fold b = b) := by
  revert b; decide +kernel

/-- C66: bounded comparison, proved for a first string longer than the limit:
the result is the comparison of the two strings cut at `len`. Missing: first
strings of at most `len` bytes, where `c66_diffn_short` says what the code does
instead and `c66_diffn_violation` shows that the documented result is not
returned. -/
theorem c66_diffn_partial (s t rest rest' : Bytes) (len : Nat) (hs : NoNul s) (ht : NoNul t)
    (hl : len < s.length) :
    str_diffn (cstr s rest) (cstr t rest') len = .ok (diff (s.take len) (t.take len)) := by
  induction s generalizing t len with
  | nil => simp at hl
  | cons a s ih =>
    cases len with
    | zero => simp [cstr_cons, str_diffn, hs.head, diff]
    | succ n =>
      have hn : ¬ (((n + 1 : Nat) : Int) ≤ 0) := by omega
      cases t with
      | nil => simp [cstr, str_diffn, diff, hs.head, show ¬ ((n : Int) + 1 ≤ 0) by omega]
      | cons b t =>
        rw [cstr_cons, cstr_cons, str_diffn, if_neg (fun h => hn h.2)]
        simp only [if_neg hs.head]
        by_cases h : a = b
        · subst h
          have e : ((n + 1 : Nat) : Int) - 1 = (n : Int) := by omega
          simp only [ne_eq, not_true_eq_false, if_false, e]
          rw [ih t n hs.tail ht.tail (by simpa using hl)]
          simp [diff]
        · simp [h, diff]

/-- C66: when the first string is not longer than the limit, the limit is
ignored and the whole strings are compared. -/
theorem c66_diffn_short (s t rest rest' : Bytes) (len : Nat) (hs : NoNul s) (ht : NoNul t)
    (hl : s.length ≤ len) :
    str_diffn (cstr s rest) (cstr t rest') len = .ok (diff s t) := by
  induction s generalizing t len with
  | nil => cases t <;> simp [cstr, str_diffn, diff]
  | cons a s ih =>
    cases len with
    | zero => simp at hl
    | succ n =>
      have hn : ¬ (((n + 1 : Nat) : Int) ≤ 0) := by omega
      cases t with
      | nil => simp [cstr, str_diffn, diff, hs.head, show ¬ ((n : Int) + 1 ≤ 0) by omega]
      | cons b t =>
        rw [cstr_cons, cstr_cons, str_diffn, if_neg (fun h => hn h.2)]
        simp only [if_neg hs.head]
        by_cases h : a = b
        · subst h
          have e : ((n + 1 : Nat) : Int) - 1 = (n : Int) := by omega
          simp only [ne_eq, not_true_eq_false, if_false, e]
          rw [ih t n hs.tail ht.tail (by simpa using hl)]
          simp [diff]
        · simp [h, diff]

/-- C66 is false of the code: "ab" and "abc" agree in their first two bytes but
the comparison limited to two bytes reports a difference. -/
theorem c66_diffn_violation :
    str_diffn (cstr b!"ab" []) (cstr b!"abc" []) 2 = .ok (-99) ∧
    diff (b!"ab".take 2) (b!"abc".take 2) = 0 := by decide

example : NoNul b!"Mail" ∧ str_start (cstr b!"Mailbox" []) (cstr b!"Mail" [1,2]) = .ok true := by decide
example : str_chr (cstr b!"a b c" []) (c! ' ') = .ok 1 ∧ str_rchr (cstr b!"a b c" []) (c! ' ') = .ok 3 := by
  decide
example : str_copy b!"xxxxxx" (cstr b!"abc" []) = .ok (b!"abc" ++ [0] ++ b!"xx", 3) := by decide
example : case_diffs (cstr b!"QUIT" []) (cstr b!"quit" []) = .ok 0 := by decide
example : lcs b!"MAIL From:" = b!"mail from:" := by decide

end Str
