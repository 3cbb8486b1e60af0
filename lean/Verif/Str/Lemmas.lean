import Verif.BaseLemmas
import Verif.Str.Model
import Verif.Str.Spec
namespace Str
open Spec
attribute [local instance] decForallByte

theorem fold_eq_lc (b : Byte) : fold b = lc b := by
  revert b; decide +kernel
theorem lower1_eq_lc (b : Byte) : lower1 b = lc b := by
  revert b; decide +kernel
theorem lc_zero (b : Byte) : lc b = 0 ↔ b = 0 := by
  revert b; decide +kernel
theorem lc_idem (b : Byte) : lc (lc b) = lc b := by
  revert b; decide +kernel
theorem lc_inj_nonletter (b : Byte) (h : ¬ (65 ≤ b.toNat ∧ b.toNat ≤ 90)) : lc b = b := by
  simp [lc, h]

theorem str_len_ok (s rest : Bytes) (hs : NoNul s) : str_len (cstr s rest) = .ok s.length := by
  induction s with
  | nil => simp [cstr, str_len]
  | cons b s ih => rw [cstr_cons, str_len, if_neg hs.head, ih hs.tail]; rfl

theorem str_start_ok (s t rest rest' : Bytes) (hs : NoNul s) (ht : NoNul t) :
    str_start (cstr s rest) (cstr t rest') = .ok (decide (t <+: s)) := by
  induction s generalizing t with
  | nil =>
    cases t with
    | nil => simp [cstr, str_start]
    | cons b t => simp [cstr, str_start, ht.head]
  | cons a s ih =>
    cases t with
    | nil => simp [cstr, str_start, hs.head]
    | cons b t =>
      rw [cstr_cons, cstr_cons, str_start, if_neg hs.head]
      by_cases h : a = b
      · subst h; simp [ih t hs.tail ht.tail]
      · have hne : ¬ (b = a) := fun e => h e.symm
        simp [h, ht.head, hne]

theorem str_chr_free (s rest : Bytes) (c : Byte) (hs : NoNul s) (hc : c ∉ s) :
    str_chr (cstr s rest) c = .ok s.length := by
  induction s with
  | nil => simp [cstr, str_chr]
  | cons b s ih =>
    simp only [List.mem_cons, not_or] at hc
    rw [cstr_cons, str_chr, if_neg hs.head, if_neg (fun e => hc.1 e.symm), ih hs.tail hc.2]; rfl

theorem str_chr_hit (s t : Bytes) (c : Byte) (hs : NoNul s) (hc : c ∉ s) :
    str_chr (s ++ c :: t) c = .ok s.length := by
  induction s with
  | nil => by_cases h : c = 0 <;> simp [str_chr]
  | cons b s ih =>
    simp only [List.mem_cons, not_or] at hc
    rw [List.cons_append, str_chr, if_neg hs.head, if_neg (fun e => hc.1 e.symm), ih hs.tail hc.2]; rfl

theorem rchrLoop_ok (s rest : Bytes) (c : Byte) (hs : NoNul s) (i : Nat) (u : Option Nat) :
    ∃ r, rchrLoop (cstr s rest) c i u = .ok (i + s.length, r) ∧
      ((c ∉ s ∧ r = u) ∨ ∃ n, r = some (i + n) ∧ s[n]? = some c ∧ ∀ j, n < j → s[j]? ≠ some c) := by
  induction s generalizing i u with
  | nil => exact ⟨u, by simp [cstr, rchrLoop], .inl ⟨by simp, rfl⟩⟩
  | cons b s ih =>
    obtain ⟨r, e, h⟩ := ih hs.tail (i + 1) (if b = c then some i else u)
    refine ⟨r, ?_, ?_⟩
    · rw [cstr_cons, rchrLoop, if_neg hs.head, e]
      simp only [List.length_cons, Out.ok.injEq, Prod.mk.injEq, and_true]; omega
    · rcases h with ⟨h1, h2⟩ | ⟨n, h1, h2, h3⟩
      · by_cases hb : b = c
        · right
          refine ⟨0, ?_, ?_, ?_⟩
          · rw [h2, if_pos hb]; rfl
          · simp [hb]
          · intro j hj hjc
            cases j with
            | zero => omega
            | succ j => exact h1 (List.mem_of_getElem? (by simpa using hjc))
        · left
          refine ⟨?_, by rw [h2, if_neg hb]⟩
          simp only [List.mem_cons, not_or]
          exact ⟨fun e => hb e.symm, h1⟩
      · right
        refine ⟨n + 1, by rw [h1]; congr 1; omega, by simpa using h2, ?_⟩
        intro j hj
        cases j with
        | zero => omega
        | succ j => simpa using h3 j (by omega)

theorem str_diff_ok (s t rest rest' : Bytes) (hs : NoNul s) (ht : NoNul t) :
    str_diff (cstr s rest) (cstr t rest') = .ok (diff s t) := by
  induction s generalizing t with
  | nil =>
    cases t with
    | nil => simp [cstr, str_diff, diff]
    | cons b t => simp [cstr, str_diff, diff]
  | cons a s ih =>
    cases t with
    | nil => simp [cstr, str_diff, diff, hs.head]
    | cons b t =>
      rw [cstr_cons, cstr_cons, str_diff, if_neg hs.head]
      by_cases h : a = b
      · subst h; simp [ih t hs.tail ht.tail, diff]
      · simp [h, diff]

theorem diff_zero (s t : Bytes) (hs : NoNul s) (ht : NoNul t) : diff s t = 0 ↔ s = t := by
  induction s generalizing t with
  | nil =>
    cases t with
    | nil => simp [diff]
    | cons b t =>
      have := ht.head
      have : b.toNat ≠ 0 := fun h => this (UInt8.toNat_inj.mp (by simpa using h))
      simp only [diff, reduceCtorEq, iff_false]; omega
  | cons a s ih =>
    cases t with
    | nil =>
      have := hs.head
      have : a.toNat ≠ 0 := fun h => this (UInt8.toNat_inj.mp (by simpa using h))
      simp only [diff, reduceCtorEq, iff_false]; omega
    | cons b t =>
      by_cases h : a = b
      · subst h; simp [diff, ih t hs.tail ht.tail]
      · have hn : a.toNat ≠ b.toNat := fun e => h (UInt8.toNat_inj.mp e)
        rw [diff, if_neg h]; simp only [List.cons.injEq, h, false_and, iff_false]; omega

theorem copyLoop_ok (pre mid t rest tail : Bytes) (z : Byte) (ht : NoNul t)
    (hm : mid.length = t.length) :
    copyLoop (pre ++ (mid ++ z :: tail)) pre.length (cstr t rest) =
      .ok (pre ++ (t ++ 0 :: tail), pre.length + t.length) := by
  induction t generalizing pre mid with
  | nil =>
    cases mid with
    | nil => simp [cstr, copyLoop, wr_append]
    | cons a b => simp at hm
  | cons b t ih =>
    cases mid with
    | nil => simp at hm
    | cons a mid =>
      have := ih (pre ++ [b]) mid ht.tail (by simpa using hm)
      rw [cstr_cons, copyLoop, if_neg ht.head, List.cons_append, wr_append]
      simp only [List.append_assoc, List.singleton_append, List.length_append, List.length_cons,
        List.length_nil, Nat.zero_add] at this
      simp only [this, List.cons_append, List.length_cons]
      congr 2; omega

theorem copyLoop_ub (dst t rest : Bytes) (i : Nat) (ht : NoNul t)
    (hm : dst.length ≤ i + t.length) : copyLoop dst i (cstr t rest) = .ub := by
  induction t generalizing dst i with
  | nil =>
    simp only [List.length_nil, Nat.add_zero] at hm
    simp [cstr, copyLoop, wr, Nat.not_lt.mpr hm]
  | cons b t ih =>
    rw [cstr_cons, copyLoop, if_neg ht.head]
    unfold wr
    split
    · rfl
    · next d he =>
      split at he
      · simp only [Out.ok.injEq] at he
        subst he
        refine ih _ _ ht.tail ?_
        simp only [List.length_set, List.length_cons] at hm ⊢; omega
      · cases he

theorem diffbLoop_ok (s t x y : Bytes) (h : s.length = t.length) :
    diffbLoop (s ++ x) s.length (t ++ y) = .ok (diff (lcs s) (lcs t)) := by
  induction s generalizing t with
  | nil => cases t with
    | nil => simp [diffbLoop, lcs, diff]
    | cons b t => simp at h
  | cons a s ih => cases t with
    | nil => simp at h
    | cons b t =>
      simp only [List.cons_append, List.length_cons, diffbLoop, fold_eq_lc, lcs, List.map_cons, diff]
      by_cases hab : lc a = lc b
      · simp only [hab, ne_eq, not_true_eq_false, if_false, if_true]
        exact ih t (by simpa using h)
      · simp [hab]

/-- Without a byte beyond the first difference being read. -/
theorem diffbLoop_early (s t x y : Bytes) (n : Nat) (a b : Byte) (h : lcs s = lcs t)
    (hab : lc a ≠ lc b) (hn : s.length < n) :
    diffbLoop (s ++ a :: x) n (t ++ b :: y) = .ok (((lc a).toNat : Int) - (lc b).toNat) := by
  induction s generalizing t n with
  | nil => cases t with
    | nil =>
      cases n with
      | zero => omega
      | succ n => simp [diffbLoop, fold_eq_lc, hab]
    | cons b t => simp [lcs] at h
  | cons c s ih => cases t with
    | nil => simp [lcs] at h
    | cons d t =>
      cases n with
      | zero => omega
      | succ n =>
        simp only [lcs, List.map_cons, List.cons.injEq] at h
        simp only [List.cons_append, diffbLoop, fold_eq_lc, h.1, ne_eq, not_true_eq_false, if_false]
        exact ih t n h.2 (by simpa using hn)

theorem case_diffs_ok (s t rest rest' : Bytes) (hs : NoNul s) (ht : NoNul t) :
    case_diffs (cstr s rest) (cstr t rest') = .ok (diff (lcs s) (lcs t)) := by
  induction s generalizing t with
  | nil =>
    cases t with
    | nil => simp [cstr, case_diffs, diff, lcs, fold_eq_lc, (lc_zero 0).mpr rfl]
    | cons b t =>
      have hb : lc b ≠ 0 := fun h => ht.head ((lc_zero b).mp h)
      have : ¬ (0 = lc b) := fun h => hb h.symm
      simp [cstr, case_diffs, diff, lcs, fold_eq_lc, (lc_zero 0).mpr rfl, this]
  | cons a s ih =>
    have ha : lc a ≠ 0 := fun h => hs.head ((lc_zero a).mp h)
    cases t with
    | nil => simp [cstr, case_diffs, diff, lcs, fold_eq_lc, (lc_zero 0).mpr rfl, ha]
    | cons b t =>
      rw [cstr_cons, cstr_cons, case_diffs, fold_eq_lc, fold_eq_lc]
      by_cases h : lc a = lc b
      · rw [if_neg (by simpa using h), if_neg ha, ih t hs.tail ht.tail]; simp [lcs, diff, h]
      · simp [h, diff, lcs]

theorem case_startb_ok (s t x rest : Bytes) (ht : NoNul t) :
    case_startb (s ++ x) s.length (cstr t rest) = .ok (decide (lcs t <+: lcs s)) := by
  induction t generalizing s with
  | nil => rw [cstr_nil, case_startb.eq_def]; simp [fold_eq_lc, (lc_zero 0).mpr rfl, lcs]
  | cons b t ih =>
    have hb : lc b ≠ 0 := fun h => ht.head ((lc_zero b).mp h)
    cases s with
    | nil => simp [cstr, case_startb, fold_eq_lc, hb, lcs]
    | cons a s =>
      simp only [cstr_cons, List.cons_append, List.length_cons, case_startb, fold_eq_lc, hb, if_false]
      by_cases h : lc a = lc b
      · simp only [h, ne_eq, not_true_eq_false, if_false]
        rw [ih s ht.tail]; simp [lcs, h]; congr
      · have : ¬ lc b = lc a := fun e => h e.symm
        simp [h, lcs, this]

theorem case_starts_ok (s t rest rest' : Bytes) (hs : NoNul s) (ht : NoNul t) :
    case_starts (cstr s rest) (cstr t rest') = .ok (decide (lcs t <+: lcs s)) := by
  induction t generalizing s with
  | nil => cases s <;> simp [cstr, case_starts, fold_eq_lc, (lc_zero 0).mpr rfl, lcs]
  | cons b t ih =>
    have hb : lc b ≠ 0 := fun h => ht.head ((lc_zero b).mp h)
    cases s with
    | nil =>
      have : ¬ (0 = lc b) := fun h => hb h.symm
      simp [cstr, case_starts, fold_eq_lc, hb, lcs, (lc_zero 0).mpr rfl, this]
    | cons a s =>
      rw [cstr_cons, cstr_cons, case_starts, fold_eq_lc, fold_eq_lc, if_neg hb]
      by_cases h : lc a = lc b
      · rw [if_neg (by simpa using h), ih s hs.tail ht.tail]; simp [lcs, h]; congr
      · have : ¬ lc b = lc a := fun e => h e.symm
        simp [h, lcs, this]

theorem case_lowerb_ok (s x : Bytes) : case_lowerb (s ++ x) s.length = .ok (lcs s ++ x) := by
  induction s with
  | nil => simp [case_lowerb, lcs]
  | cons b s ih => simp [case_lowerb, ih, lcs, lower1_eq_lc]

theorem case_lowers_ok (s rest : Bytes) (hs : NoNul s) :
    case_lowers (cstr s rest) = .ok (cstr (lcs s) rest) := by
  induction s with
  | nil => simp [case_lowers, lcs, cstr]
  | cons b s ih => rw [cstr_cons, case_lowers, if_neg hs.head, ih hs.tail]; simp [lcs, lower1_eq_lc, cstr]

end Str
