import Verif.Log.Spec
import Verif.Num.Lemmas
import Verif.BaseLemmas
import Verif.Stralloc.Lemmas
namespace Log
open Num.Spec (decimal)

attribute [local instance] decForallByte

/-! ### Escaping -/

theorem escchar_false (b : Byte) : escchar false b = showByte b := by
  revert b; decide +kernel

theorem escchar_true (b : Byte) : escchar true b = if b = 10 then [10] else showByte b := by
  revert b; decide +kernel

/-- A check of all 256 byte values, evaluated by the kernel. -/
theorem forallByte (f : Byte → Bool) (h : (List.range 256).all (fun n => f (UInt8.ofNat n)) = true) (b : Byte) :
    f b = true := by
  have := List.all_eq_true.1 h b.toNat (List.mem_range.2 b.toNat_lt)
  simpa using this

def printable (b : Byte) : Bool := Nat.ble 32 b.toNat && Nat.ble b.toNat 126

theorem all_printable (s : Bytes) (h : s.all printable = true) : ∀ x ∈ s, Printable x := by
  intro x hx
  have := List.all_eq_true.1 h x hx
  unfold printable at this
  unfold Printable
  simpa using this

theorem showByte_printable (b : Byte) : ∀ x ∈ showByte b, Printable x :=
  all_printable _ (forallByte (fun b => (showByte b).all printable) (by decide +kernel) b)

theorem outsescape_ok (flaglf : Bool) (s rest : Bytes) (h : NoNul s) :
    outsescape flaglf (cstr s rest) = .ok (s.flatMap (escchar flaglf)) := by
  induction s with
  | nil => rfl
  | cons b s ih =>
    have hb : b ≠ 0 := h b (by simp)
    have := ih (fun x hx => h x (by simp [hx]))
    unfold cstr at this ⊢
    rw [List.cons_append, outsescape, if_neg hb, this]
    rfl

theorem outsescape_false (s rest : Bytes) (h : NoNul s) :
    outsescape false (cstr s rest) = .ok (shown s) := by
  rw [outsescape_ok false s rest h]
  unfold shown
  congr 2; funext b; exact escchar_false b

theorem outsescape_true (s rest : Bytes) (h : NoNul s) :
    outsescape true (cstr s rest) = .ok (shownUsage s) := by
  rw [outsescape_ok true s rest h]
  unfold shownUsage
  congr 2; funext b; exact escchar_true b

theorem shown_append (a b : Bytes) : shown (a ++ b) = shown a ++ shown b := by
  unfold shown; rw [List.flatMap_append]

theorem shown_printable (s : Bytes) : ∀ x ∈ shown s, Printable x := by
  intro x hx
  obtain ⟨b, _, h⟩ := List.mem_flatMap.1 hx
  exact showByte_printable b x h

theorem shownUsage_noLF (s : Bytes) (h : (10 : Byte) ∉ s) : shownUsage s = shown s := by
  induction s with
  | nil => rfl
  | cons b s ih =>
    have h1 : b ≠ 10 := by intro e; apply h; simp [e]
    have h2 := ih (by intro e; apply h; simp [e])
    unfold shownUsage shown at *
    rw [List.flatMap_cons, List.flatMap_cons, h2, if_neg h1]

theorem shown_of_printable (s : Bytes) (h : ∀ x ∈ s, Printable x) : shown s = s := by
  induction s with
  | nil => rfl
  | cons b s ih =>
    have hb := h b (by simp)
    have h2 := ih (fun x hx => h x (by simp [hx]))
    unfold shown at *
    rw [List.flatMap_cons, h2]
    have : showByte b = [b] := by
      clear h h2 ih
      revert b; decide +kernel
    rw [this]; rfl

theorem printable_noNul (s : Bytes) (h : ∀ x ∈ s, Printable x) : NoNul s := by
  intro b hb e
  have := h b hb
  subst e
  exact absurd this (by decide)

theorem printable_noLF (s : Bytes) (h : ∀ x ∈ s, Printable x) : (10 : Byte) ∉ s := by
  intro hb
  exact absurd (h _ hb) (by decide)

/-- Printing a constant of the program. -/
theorem outs_ok (s : Bytes) (h : ∀ x ∈ s, Printable x) : outs s = .ok s := by
  have := outsescape_true s [] (printable_noNul s h)
  unfold outs
  rw [show s ++ [0] = cstr s [] from rfl, this, shownUsage_noLF _ (printable_noLF s h),
    shown_of_printable s h]

theorem outsescape_printable (s rest : Bytes) (h : ∀ x ∈ s, Printable x) :
    outsescape true (cstr s rest) = .ok s := by
  rw [outsescape_true s rest (printable_noNul s h), shownUsage_noLF _ (printable_noLF s h),
    shown_of_printable s h]

theorem e_str_printable (i : Int) : ∀ x ∈ e_str i, Printable x := by
  have h0 : (errnoTable.all fun p => p.2.all printable) = true := by decide +kernel
  have h1 : ∀ p ∈ errnoTable, ∀ x ∈ p.2, Printable x := fun p hp => all_printable _ (List.all_eq_true.1 h0 p hp)
  unfold e_str
  split
  · rename_i p hp
    exact h1 p (List.mem_of_find?_eq_some hp)
  · decide +kernel

/-! ### Numbers -/

theorem putDown_ok (n : Nat) : ∀ (buf : Bytes) (k : Nat), k + (decimal n).length ≤ buf.length →
    putDown buf (k + (decimal n).length) n =
      .ok (buf.take k ++ decimal n ++ buf.drop (k + (decimal n).length), k) := by
  induction n using decimal.induct with
  | case1 n h =>
    intro buf k hb
    rw [decimal, if_pos h] at *
    simp only [List.length_singleton] at *
    rw [putDown.eq_def]
    have h1 : n % 10 = n := by omega
    have h2 : n / 10 = 0 := by omega
    simp only [h1, h2, if_true]
    rw [if_pos (by omega), List.set_eq_take_append_cons_drop, if_pos (by omega)]
    simp
  | case2 n h ih =>
    intro buf k hb
    have hdec : decimal n = decimal (n / 10) ++ [UInt8.ofNat (48 + n % 10)] := by
      rw [decimal, if_neg h]
    rw [hdec] at hb
    rw [hdec]
    simp only [List.length_append, List.length_singleton] at hb
    simp only [List.length_append, List.length_singleton]
    rw [putDown.eq_def, ← Nat.add_assoc]
    simp only
    rw [if_pos (by omega), if_neg (by omega), ih _ _ (by simp; omega)]
    rw [List.set_eq_take_append_cons_drop, if_pos (by omega)]
    congr 2
    rw [List.take_append_of_le_length (by simp; omega), List.take_take,
      List.drop_append, List.drop_of_length_le (by simp; omega)]
    simp only [List.length_take, List.append_assoc, List.nil_append, List.cons_append]
    rw [show min k (k + (decimal (n / 10)).length) = k by omega,
      show k + (decimal (n / 10)).length - min (k + (decimal (n / 10)).length) buf.length = 0 by omega]
    rfl

theorem putDown_app (n : Nat) (A B R : Bytes) (h : B.length = (decimal n).length) :
    putDown (A ++ B ++ R) (A.length + B.length) n = .ok (A ++ decimal n ++ R, A.length) := by
  rw [h, putDown_ok n _ _ (by simp; omega)]
  congr 2
  rw [List.append_assoc A B R, List.take_left, ← h, ← List.length_append, ← List.append_assoc, List.drop_left]

theorem padDown_app (P : Bytes) : ∀ (A R : Bytes),
    padDown (A ++ P ++ R) (A.length + P.length) P.length = .ok (A ++ List.replicate P.length 48 ++ R, A.length) := by
  generalize hk : P.length = k
  induction k generalizing P with
  | zero => intro A R; have := List.length_eq_zero_iff.1 hk; subst this; simp [padDown]
  | succ k ih =>
    intro A R
    obtain ⟨P', x, rfl⟩ : ∃ P' x, P = P' ++ [x] := ⟨P.dropLast, P.getLast (by intro e; simp [e] at hk),
      (List.dropLast_concat_getLast _).symm⟩
    have hl : P'.length = k := by simpa using hk
    rw [← Nat.add_assoc, padDown, wr, if_pos (by simp; omega)]
    simp only [Out.ok_bind]
    have e : (A ++ (P' ++ [x]) ++ R).set (A.length + k) (c! '0') = A ++ P' ++ (48 :: R) := by
      rw [show A ++ (P' ++ [x]) ++ R = (A ++ P') ++ (x :: R) by simp,
        List.set_append_right _ _ (by simp; omega)]
      simp [hl]
    rw [e, ih P' hl, List.replicate_succ']
    simp

theorem decimal_len (v : Int) (hv : IsLL v) : (decimal v.natAbs).length ≤ 19 := by
  apply Stralloc.decimal_length_le 18
  unfold IsLL llmin llmax at hv
  omega

theorem decimal_pos (n : Nat) : 0 < (decimal n).length := by
  have := Num.decimal_ne_nil n
  cases h : decimal n with
  | nil => exact absurd h this
  | cons x y => simp

/-- numtostr: the text starts at the returned index, followed by its terminator. -/
theorem numtostr_ok (buf : Bytes) (n cnt : Int) (hn : IsLL n) (hc : IsLL cnt)
    (hb : (decimal n.natAbs).length + 2 ≤ buf.length) :
    ∃ buf', numtostr buf buf.length n cnt = .ok (buf', 0) ∧ buf'.length = buf.length ∧
      (∃ rest, buf' = cstr (numField n (min cnt.toNat (buf.length - 1))) rest) := by
  have hd := decimal_len n hn
  have hd0 := decimal_pos n.natAbs
  have hn2 : (if n < 0 then toU64 (-(toU64 n : Int)) else toU64 n) = n.natAbs := by
    unfold IsLL llmin llmax at hn
    split
    · exact Stralloc.toU64_neg n (by omega) (by omega)
    · rw [Stralloc.toU64_small n (by omega) (by omega)]; omega
  have hcnt : ∀ c : Int, c = (if cnt > (buf.length : Int) - 1 then (buf.length : Int) - 1 else cnt) →
      c.toNat = min cnt.toNat (buf.length - 1) := by intro c hc'; split at hc' <;> omega
  unfold numtostr
  simp only []
  rw [hn2, Num.countLoop_eq]
  generalize hC : (if cnt > (buf.length : Int) - 1 then (buf.length : Int) - 1 else cnt) = c
  have hc2 := hcnt c hC.symm
  have hc3 : c ≤ (buf.length : Int) - 1 := by split at hC <;> omega
  rw [← hc2]
  generalize hD : decimal n.natAbs = D at hd hd0 hb ⊢
  by_cases hneg : n < 0
  · rw [decide_eq_true hneg]
    simp only [if_true]
    generalize hP : (if c > (D.length : Int) + 1 then c else (D.length : Int) + 1) = pos
    generalize hK : (c - ((D.length : Int) + 1)).toNat = k
    have hp1 : pos.toNat = 1 + k + D.length := by split at hP <;> omega
    have hp2 : pos.toNat < buf.length := by split at hP <;> omega
    obtain ⟨x, P, B, y, R, rfl, hPl, hBl⟩ : ∃ x P B y R, buf = [x] ++ P ++ B ++ y :: R ∧ P.length = k ∧
        B.length = D.length := by
      refine ⟨buf[0], (buf.drop 1).take k, (buf.drop (1 + k)).take D.length, buf[1 + k + D.length],
        buf.drop (1 + k + D.length + 1), ?_, by simp; omega, by simp; omega⟩
      rw [← List.drop_eq_getElem_cons, List.append_assoc, ← List.drop_drop (j := 1 + k), List.take_append_drop,
        List.append_assoc, ← List.drop_drop, List.take_append_drop]
      exact (List.drop_eq_getElem_cons (i := 0) (l := buf) (by omega))
    rw [wr, if_pos hp2]
    simp only [Out.ok_bind]
    have e0 : ([x] ++ P ++ B ++ y :: R).set pos.toNat 0 = [x] ++ P ++ B ++ 0 :: R := by
      rw [List.set_append_right _ _ (by simp; omega)]
      rw [show pos.toNat - ([x] ++ P ++ B).length = 0 by simp; omega]
      rfl
    have e1 := putDown_app n.natAbs ([x] ++ P) B (0 :: R) (by rw [hD]; omega)
    rw [hD, show ([x] ++ P).length + B.length = pos.toNat by simp; omega] at e1
    rw [e0, e1]
    simp only [Out.ok_bind]
    have e2 := padDown_app P [x] (D ++ 0 :: R)
    rw [← List.append_assoc, hPl] at e2
    rw [show ([x] ++ P).length = [x].length + k by simp; omega, e2]
    simp only [Out.ok_bind, List.length_singleton]
    rw [wr, if_pos (by simp)]
    simp only [Out.ok_bind, Out.pure_eq]
    refine ⟨_, rfl, ?_, R, ?_⟩
    · simp; omega
    · unfold numField cstr
      rw [if_pos hneg, hD, show c.toNat - 1 - D.length = k by omega]
      simp
  · rw [decide_eq_false hneg]
    simp only [Bool.false_eq_true, if_false]
    generalize hP : (if c > (D.length : Int) then c else (D.length : Int)) = pos
    generalize hK : (c - (D.length : Int)).toNat = k
    have hp1 : pos.toNat = k + D.length := by split at hP <;> omega
    have hp2 : pos.toNat < buf.length := by split at hP <;> omega
    obtain ⟨P, B, y, R, rfl, hPl, hBl⟩ : ∃ P B y R, buf = P ++ B ++ y :: R ∧ P.length = k ∧
        B.length = D.length := by
      refine ⟨buf.take k, (buf.drop k).take D.length, buf[k + D.length],
        buf.drop (k + D.length + 1), ?_, by simp; omega, by simp; omega⟩
      rw [← List.drop_eq_getElem_cons, ← List.drop_drop, List.append_assoc, List.take_append_drop,
        List.take_append_drop]
    rw [wr, if_pos hp2]
    simp only [Out.ok_bind]
    have e0 : (P ++ B ++ y :: R).set pos.toNat 0 = P ++ B ++ 0 :: R := by
      rw [List.set_append_right _ _ (by simp; omega)]
      rw [show pos.toNat - (P ++ B).length = 0 by simp; omega]
      rfl
    have e1 := putDown_app n.natAbs P B (0 :: R) (by rw [hD]; omega)
    rw [hD, show P.length + B.length = pos.toNat by omega] at e1
    rw [e0, e1]
    simp only [Out.ok_bind]
    have e2 := padDown_app P [] (D ++ 0 :: R)
    rw [← List.append_assoc, List.nil_append, List.nil_append, List.length_nil, Nat.zero_add, hPl] at e2
    rw [hPl, e2]
    simp only [Out.ok_bind, Out.pure_eq]
    refine ⟨_, rfl, ?_, R, ?_⟩
    · simp; omega
    · unfold numField cstr
      rw [if_neg hneg, hD, show c.toNat - D.length = k by omega]
      simp

theorem numField_printable (n : Int) (w : Nat) : ∀ x ∈ numField n w, Printable x := by
  have hd : ∀ x ∈ decimal n.natAbs, Printable x := by
    intro x hx
    have := Num.decimal_digits _ x hx
    unfold Num.Spec.IsDigit at this
    unfold Printable; omega
  have hr : ∀ k, ∀ x ∈ List.replicate k (48 : Byte), Printable x := by
    intro k x hx
    rw [(List.mem_replicate.1 hx).2]; decide
  intro x hx
  unfold numField at hx
  split at hx
  · rcases List.mem_append.1 hx with hx | hx
    · rcases List.mem_append.1 hx with hx | hx
      · rw [List.mem_singleton.1 hx]; decide
      · exact hr _ x hx
    · exact hd x hx
  · rcases List.mem_append.1 hx with hx | hx
    · exact hr _ x hx
    · exact hd x hx

theorem outnum_ok (junk : Bytes) (hj : junk.length = 68) (n cnt : Int) (hn : IsLL n) (hc : IsLL cnt) :
    outnum junk n cnt = .ok (numField n (min cnt.toNat 67)) := by
  obtain ⟨b, e, _, rest, hb⟩ := numtostr_ok junk n cnt hn hc (by have := decimal_len n hn; omega)
  unfold outnum
  rw [hj] at e hb
  rw [show ((STATICBUFSIZE : Nat) : Int) = ((68 : Nat) : Int) from rfl, e]
  simp only [Out.ok_bind, List.drop_zero]
  rw [hb]
  exact outsescape_printable _ _ (numField_printable _ _)

/-! ### Output -/

/-- Every write is accepted at least in part. -/
def AllData (evs : List W) : Prop := ∀ e ∈ evs, ∃ m, e = W.data m

theorem flushLoop_ok (b : Bytes) (retries : Nat) (evs : List W) (err : Bytes) :
    ∃ p evs' bl, flushLoop b retries evs err = (err ++ p, evs', bl) ∧ p <+: b ∧ evs' <:+ evs ∧
      (AllData evs → bl = false → p = b) ∧
      (AllData evs → b.length ≤ evs.length → bl = false ∧ evs.length ≤ evs'.length + b.length) := by
  induction evs generalizing b retries err with
  | nil =>
    unfold flushLoop
    by_cases hb : b.length > 0
    · rw [if_pos hb]
      refine ⟨[], [], true, by simp, List.nil_prefix, List.suffix_refl _, by simp, ?_⟩
      intro _ h; simp at h; simp [h] at hb
    · rw [if_neg hb]
      have : b = [] := by cases b with | nil => rfl | cons => simp at hb
      subst this
      exact ⟨[], [], false, by simp, List.nil_prefix, List.suffix_refl _, by simp, by simp⟩
  | cons e evs ih =>
    unfold flushLoop
    by_cases hb : b.length > 0
    · rw [if_pos hb]
      cases e with
      | data m =>
        simp only []
        obtain ⟨p, evs', bl, e1, e2, e3, e4, e5⟩ := ih (b.drop (min b.length (m + 1))) 0
          (err ++ b.take (min b.length (m + 1)))
        refine ⟨b.take (min b.length (m + 1)) ++ p, evs', bl, ?_, ?_, ?_, ?_, ?_⟩
        · rw [e1, List.append_assoc]
        · obtain ⟨t, ht⟩ := e2
          exact ⟨t, by rw [List.append_assoc, ht, List.take_append_drop]⟩
        · exact e3.trans (List.suffix_cons _ _)
        · intro h1 h2
          rw [e4 (fun x hx => h1 x (by simp [hx])) h2, List.take_append_drop]
        · intro h1 h2
          simp only [List.length_drop, List.length_cons] at e5 h2 ⊢
          have hm : 1 ≤ min b.length (m + 1) := by omega
          have := e5 (fun x hx => h1 x (by simp [hx])) (by omega)
          exact ⟨this.1, by have := this.2; omega⟩
      | zero =>
        refine ⟨[], evs, false, by simp, List.nil_prefix, List.suffix_cons _ _, ?_, ?_⟩ <;>
          · intro h1; obtain ⟨m, hm⟩ := h1 _ List.mem_cons_self; simp at hm
      | err =>
        refine ⟨[], evs, false, by simp, List.nil_prefix, List.suffix_cons _ _, ?_, ?_⟩ <;>
          · intro h1; obtain ⟨m, hm⟩ := h1 _ List.mem_cons_self; simp at hm
      | eintr =>
        obtain ⟨p, evs', bl, e1, e2, e3, e4, e5⟩ := ih b retries err
        refine ⟨p, evs', bl, e1, e2, e3.trans (List.suffix_cons _ _), ?_, ?_⟩ <;>
          · intro h1; obtain ⟨m, hm⟩ := h1 _ List.mem_cons_self; simp at hm
      | eagain =>
        simp only []
        by_cases hr : retries + 1 < 64
        · rw [if_pos hr]
          obtain ⟨p, evs', bl, e1, e2, e3, e4, e5⟩ := ih b (retries + 1) err
          refine ⟨p, evs', bl, e1, e2, e3.trans (List.suffix_cons _ _), ?_, ?_⟩ <;>
            · intro h1; obtain ⟨m, hm⟩ := h1 _ List.mem_cons_self; simp at hm
        · rw [if_neg hr]
          refine ⟨[], evs, false, by simp, List.nil_prefix, List.suffix_cons _ _, ?_, ?_⟩ <;>
            · intro h1; obtain ⟨m, hm⟩ := h1 _ List.mem_cons_self; simp at hm
    · rw [if_neg hb]
      have : b = [] := by cases b with | nil => rfl | cons => simp at hb
      subst this
      exact ⟨[], e :: evs, false, by simp, List.nil_prefix, List.suffix_refl _, by simp, by simp⟩

theorem AllData.suffix {a b : List W} (h : AllData b) (hs : a <:+ b) : AllData a :=
  fun e he => h e (hs.subset he)

theorem flush_ok (s : St) (pend : Bytes) (hp : s.buf.take s.buflen = pend) :
    ∃ p, (flush s).err = s.err ++ p ∧ p <+: pend ∧ (flush s).evs <:+ s.evs ∧
      (flush s).buflen = 0 ∧ (flush s).buf = s.buf ∧
      (AllData s.evs → (flush s).blocked = false → p = pend) ∧
      (AllData s.evs → pend.length ≤ s.evs.length →
        (flush s).blocked = false ∧ s.evs.length ≤ (flush s).evs.length + pend.length) := by
  obtain ⟨p, evs', bl, e1, e2, e3, e4, e5⟩ := flushLoop_ok pend 0 s.evs s.err
  unfold flush
  rw [hp, e1]
  exact ⟨p, rfl, e2, e3, rfl, rfl, e4, e5⟩

/-- The buffer holds `pend`, waiting to be written. -/
def Pending (s : St) (pend : Bytes) : Prop :=
  s.buf.length = 256 ∧ s.buflen ≤ 256 ∧ s.buflen = pend.length ∧ s.buf.take s.buflen = pend

theorem emit_blocked (s : St) (h : s.blocked = true) (xs : Bytes) : emit s xs = .ok s := by
  induction xs with
  | nil => rw [emit, if_pos h]
  | cons x xs ih => rw [emit, outch, if_pos h]; exact ih

/-- Storing one character. -/
theorem store_ok (s : St) (pend : Bytes) (x : Byte) (h : Pending s pend) (hl : s.buflen < 256) :
    ∃ buf, wr s.buf s.buflen x = .ok buf ∧
      Pending { s with buf := buf, buflen := s.buflen + 1 } (pend ++ [x]) := by
  obtain ⟨h1, h2, h3, h4⟩ := h
  refine ⟨s.buf.set s.buflen x, by rw [wr, if_pos (by omega)], by simp [h1], by simp only []; omega,
    by simp [h3], ?_⟩
  simp only []
  rw [List.set_eq_take_append_cons_drop, if_pos (by omega), List.take_append, List.take_take, h4]
  rw [show s.buflen + 1 - pend.length = 1 by omega,
    show min (s.buflen + 1) s.buflen = s.buflen by omega, h4]
  simp

theorem emit_ok (xs : Bytes) : ∀ (s : St) (pend : Bytes), Pending s pend → s.blocked = false →
    ∃ s' out, emit s xs = .ok s' ∧ s'.err = s.err ++ out ∧ out.Sublist (pend ++ xs) ∧
      s'.buf.length = 256 ∧ (s'.blocked = false → s'.buflen = 0) ∧ s'.evs <:+ s.evs ∧
      (AllData s.evs → s'.blocked = false → out = pend ++ xs) ∧
      (AllData s.evs → pend.length + xs.length ≤ s.evs.length →
        s'.blocked = false ∧ s.evs.length ≤ s'.evs.length + pend.length + xs.length) := by
  induction xs with
  | nil =>
    intro s pend h hb
    obtain ⟨p, e1, e2, e3, e4, e5, e6, e7⟩ := flush_ok s pend h.2.2.2
    rw [emit, if_neg (by simp [hb])]
    refine ⟨_, p, rfl, e1, by rw [List.append_nil]; exact e2.sublist, by rw [e5]; exact h.1, fun _ => e4, e3, ?_, ?_⟩
    · rw [List.append_nil]; exact e6
    · simpa using e7
  | cons x xs ih =>
    intro s pend h hb
    rw [emit, outch, if_neg (by simp [hb])]
    simp only []
    by_cases hf : s.buflen ≥ 256
    · rw [if_pos hf]
      obtain ⟨p, e1, e2, e3, e4, e5, e6, e7⟩ := flush_ok s pend h.2.2.2
      generalize flush s = t at e1 e3 e4 e5 e6 e7
      by_cases hbl : t.blocked = true
      · rw [if_pos hbl]
        simp only [Out.ok_bind]
        rw [emit_blocked t hbl]
        refine ⟨t, p, rfl, e1, e2.sublist.trans (List.sublist_append_left _ _), by rw [e5]; exact h.1,
          by simp [hbl], e3, by simp [hbl], ?_⟩
        intro h1 h2
        simp only [List.length_cons] at h2
        have := (e7 h1 (by omega)).1
        simp [hbl] at this
      · rw [if_neg hbl]
        have ht : Pending t [] := ⟨by rw [e5]; exact h.1, by omega, by simp [e4], by simp [e4]⟩
        obtain ⟨buf, f1, f2⟩ := store_ok t [] x ht (by omega)
        rw [f1]
        simp only [Out.ok_bind, Out.pure_eq]
        obtain ⟨s', out, g1, g2, g3, g4, g5, g6, g7, g8⟩ := ih _ _ f2 (by simpa using hbl)
        refine ⟨s', p ++ out, g1, by rw [g2, e1, List.append_assoc], ?_, g4, g5, g6.trans e3, ?_, ?_⟩
        · exact e2.sublist.append g3
        · intro h1 h2
          rw [e6 h1 (by simpa using hbl), g7 (h1.suffix e3) h2]; rfl
        · intro h1 h2
          simp only [List.length_cons, List.length_append, List.length_nil] at h2 g8 ⊢
          have a1 := e7 h1 (by omega)
          have a2 := g8 (h1.suffix e3) (by omega)
          exact ⟨a2.1, by omega⟩
    · rw [if_neg hf, if_neg (by simp [hb])]
      obtain ⟨buf, f1, f2⟩ := store_ok s pend x h (by omega)
      rw [f1]
      simp only [Out.ok_bind, Out.pure_eq]
      obtain ⟨s', out, g1, g2, g3, g4, g5, g6, g7, g8⟩ := ih _ _ f2 hb
      refine ⟨s', out, g1, g2, by simpa using g3, g4, g5, g6, by simpa using g7, ?_⟩
      intro h1 h2
      simp only [List.length_cons, List.length_append, List.length_nil] at h2 g8 ⊢
      have := g8 h1 (by omega)
      exact ⟨this.1, by omega⟩

theorem idle_pending (s : St) (h : s.Idle) : Pending s [] := ⟨h.1, by rw [h.2.1]; omega, h.2.1, by rw [h.2.1]; rfl⟩

/-! ### The record -/

theorem message_ok (flaglf : Bool) (l : List (Option Bytes)) (ps : List Bytes) (h : Parts l ps) :
    ∀ k, l.length ≤ k → message flaglf k l = .ok (ps.flatten.flatMap (escchar flaglf)) := by
  induction h with
  | nil => intro k _; cases k <;> rfl
  | null => intro k _; cases k <;> rfl
  | @cons s rest l ps hs hp ih =>
    intro k hk
    cases k with
    | zero => simp at hk
    | succ k =>
      rw [message, outsescape_ok _ _ _ hs, ih k (by simpa using hk)]
      simp [List.flatMap_append]

/-- The fragments beyond the ninth do not matter. -/
theorem message_take (flaglf : Bool) (k : Nat) (l : List (Option Bytes)) :
    message flaglf k l = message flaglf k (l.take k) := by
  induction k generalizing l with
  | zero => simp [message]
  | succ k ih =>
    cases l with
    | nil => rfl
    | cons x l =>
      cases x with
      | none => rfl
      | some m => rw [List.take_succ_cons, message, message, ih]

theorem levelName_eq (n : Nat) (h1 : 1 ≤ n) (h4 : n ≤ 4) (fe : Int) :
    levelName n fe = (kind n fe, color n fe) := by
  have : n = 1 ∨ n = 2 ∨ n = 3 ∨ n = 4 := by omega
  rcases this with rfl | rfl | rfl | rfl
  · by_cases h : fe = 2 <;> simp [levelName, kind, color, h]
  · by_cases h : fe = 1
    · simp [levelName, kind, color, h]
    · by_cases h' : fe = 2 <;> simp [levelName, kind, color, h, h']
  · rfl
  · rfl

theorem kind_printable (n : Nat) (fe : Int) : ∀ x ∈ kind n fe, Printable x := by
  unfold kind
  split <;> (repeat' split) <;> decide +kernel

theorem color_printable (n : Nat) (fe : Int) (col : Bytes) (h : color n fe = some col) :
    ∀ x ∈ col, Printable x := by
  unfold color at h
  revert h
  split <;> (repeat' split) <;> (intro h; first | (cases h; decide +kernel) | cases h)

theorem ll_small (x : Int) (h1 : -2 ^ 62 < x) (h2 : x < 2 ^ 62) (d : Int) (hd : 0 ≤ d) (hd2 : d < 2000) :
    IsLL (x + d) := by
  unfold IsLL llmin llmax; omega

theorem timePart_ok (m : Cfg) (c : Settings) (hc : m.Holds c) (a : Args) (ha : a.level ≠ 0) :
    timePart m a = .ok (match (generalizing := false) c.time with | some t => timeText t ++ b!": " | none => []) := by
  unfold timePart
  rw [if_neg ha, hc.time]
  by_cases ht : m.logtime = true
  · rw [if_neg (by simp [ht]), if_pos ht]
    cases hk : m.clock with
    | none => rfl
    | some t =>
      have hr := hc.tm t hk
      have hf : ∀ x ∈ [t.year, t.mon, t.mday, t.hour, t.min, t.sec, t.usec], ∀ d, 0 ≤ d → d < 2000 → IsLL (x + d) :=
        fun x hx d h1 h2 => ll_small x (hr x hx).1 (hr x hx).2 d h1 h2
      have key : ∀ x ∈ [t.year, t.mon, t.mday, t.hour, t.min, t.sec, t.usec], ∀ d, 0 ≤ d → d < 2000 →
          ∀ w : Nat, w ≤ 67 → outnum m.junk (x + d) w = .ok (numField (x + d) w) := by
        intro x hx d h1 h2 w hw
        rw [outnum_ok m.junk hc.junk _ _ (hf x hx d h1 h2) (by unfold IsLL llmin llmax; omega)]
        rw [Int.toNat_natCast, show min w 67 = w by omega]
      have e1 := key t.year (by simp) 1900 (by omega) (by omega) 4 (by omega)
      have e2 := key t.mon (by simp) 1 (by omega) (by omega) 2 (by omega)
      have e3 := key t.mday (by simp) 0 (by omega) (by omega) 2 (by omega)
      have e4 := key t.hour (by simp) 0 (by omega) (by omega) 2 (by omega)
      have e5 := key t.min (by simp) 0 (by omega) (by omega) 2 (by omega)
      have e6 := key t.sec (by simp) 0 (by omega) (by omega) 2 (by omega)
      have e7 := key t.usec (by simp) 0 (by omega) (by omega) 6 (by omega)
      simp only [Int.add_zero] at e3 e4 e5 e6 e7
      simp only []
      rw [show (4 : Int) = ((4 : Nat) : Int) from rfl, show (2 : Int) = ((2 : Nat) : Int) from rfl,
        show (6 : Int) = ((6 : Nat) : Int) from rfl, e1, e2, e3, e4, e5, e6, e7]
      simp only [Out.ok_bind]
      rw [outs_ok b!"-" (by decide +kernel), outs_ok b!" " (by decide +kernel), outs_ok b!":" (by decide +kernel),
        outs_ok b!"." (by decide +kernel), outs_ok b!": " (by decide +kernel)]
      simp only [Out.ok_bind, Out.pure_eq]
      rfl
  · rw [if_pos (by simpa using ht), if_neg ht]

theorem prefixPart_ok (a : Args) (ha : a.level ≠ 0) (p s : Option Bytes) (h : Ptr p s) :
    prefixPart a p = .ok (match (generalizing := false) s with | some s => shown s ++ b!": " | none => []) := by
  unfold prefixPart
  rw [if_neg ha]
  cases s with
  | none => rw [show p = none from h]
  | some s =>
    obtain ⟨hn, rest, rfl⟩ := h
    simp only []
    rw [outsescape_false s rest hn, outs_ok b!": " (by decide +kernel)]
    rfl

/-- The suffixes as the code assembles them: text so far and whether a space was printed. -/
theorem suffix_step (l : List Bytes) (x : Bytes) :
    suffixes (l ++ [x]) = suffixes l ++ ((if l = [] then b!" " else []) ++ x) := by
  unfold suffixes
  cases l with
  | nil => simp
  | cons a l => simp

theorem space_ok (f : Bool) : space f = .ok (if f then [] else b!" ") := by
  cases f
  · exact outs_ok b!" " (by decide +kernel)
  · rfl

/-- One record, for levels 1 to 4. -/
theorem record_ok (m : Cfg) (c : Settings) (hc : m.Holds c) (lv : Levels) (a : Args) (e : Event)
    (he : a.Holds e) (h1 : 1 ≤ e.level) (h4 : e.level ≤ 4) :
    record m lv a = .ok (line c lv.loc lv.id e ++ [10]) := by
  have ha : a.level ≠ 0 := by rw [he.level]; omega
  have hln : levelName a.level a.flagerror = (kind e.level e.flagerror, color e.level e.flagerror) := by
    rw [he.level, he.flagerror]; exact levelName_eq _ h1 h4 _
  generalize hcol : (if c.color then color e.level e.flagerror else none) = col
  have eOn : colorOn m a = .ok (match (generalizing := false) col with | some x => 27 :: x | none => []) := by
    unfold colorOn
    rw [hc.color, hln, ← hcol]
    cases c.color with
    | false => rfl
    | true =>
      simp only [Bool.not_true, Bool.false_eq_true, if_false, if_true]
      cases hk : color e.level e.flagerror with
      | none => rfl
      | some x => simp only []; rw [outs_ok x (color_printable _ _ _ hk)]; rfl
  have eOff : colorOff m a = .ok (match (generalizing := false) col with | some _ => b!"\x1b[0m" | none => []) := by
    unfold colorOff
    rw [hc.color, hln, ← hcol]
    cases c.color with
    | false => rfl
    | true =>
      simp only [Bool.not_true, Bool.false_eq_true, if_false, if_true]
      cases hk : color e.level e.flagerror with
      | none => rfl
      | some x => simp only []; rw [outs_ok b!"[0m" (by decide +kernel)]; rfl
  have eLv : levelPart a = .ok (kind e.level e.flagerror ++ b!": ") := by
    unfold levelPart
    rw [if_neg ha, hln, outs_ok _ (kind_printable _ _), outs_ok b!": " (by decide +kernel)]
    rfl
  have eMsg : message (decide (a.level = 0)) 9 a.s = .ok (shown e.parts.flatten) := by
    rw [message_take, message_ok _ _ _ he.parts 9 (by simp; omega), decide_eq_false ha]
    unfold shown
    congr 2; funext b; exact escchar_false b
  generalize hE : (if e.errno ≠ 0 ∧ e.flagerror ≠ 0 ∧ e.level < 3 then [b!"(" ++ e_str e.errno ++ b!")"] else []) = E
  have eErr : errPart a = .ok (suffixes E, decide (E ≠ [])) := by
    unfold errPart
    rw [if_neg ha, he.errno, he.flagerror, he.level]
    by_cases k1 : e.errno = 0
    · rw [if_pos k1]; rw [if_neg (by simp [k1])] at hE; subst hE; rfl
    · rw [if_neg k1]
      by_cases k2 : e.flagerror = 0
      · rw [if_pos k2]; rw [if_neg (by simp [k2])] at hE; subst hE; rfl
      · rw [if_neg k2]
        by_cases k3 : e.level < 3
        · rw [if_neg (by omega)]
          rw [if_pos ⟨k1, k2, k3⟩] at hE
          rw [space_ok, outs_ok b!"(" (by decide +kernel), outs_ok _ (e_str_printable _), outs_ok b!")" (by decide +kernel)]
          subst hE
          simp [suffixes]
        · rw [if_pos (by omega)]
          rw [if_neg (by omega)] at hE
          subst hE; rfl
  generalize hL : locSuffix lv.loc e.src = L
  have eLoc : ∃ t, locPart m lv a (decide (E ≠ [])) = .ok (t, decide (E ++ L ≠ [])) ∧
      suffixes E ++ t = suffixes (E ++ L) := by
    unfold locPart
    rw [if_neg ha]
    have hs := he.src
    revert hs hL
    cases e.src with
    | none =>
      intro hL hs
      simp only [locSuffix] at hL hs
      subst hL
      refine ⟨[], ?_, by simp⟩
      rw [List.append_nil]
      rcases hs.2 with h | h | h
      · rw [h]
      · rw [h]; cases a.f <;> rfl
      · cases a.f with
        | none => rfl
        | some f => cases a.fce with
          | none => rfl
          | some g => simp only []; rw [if_pos h]
    | some q =>
      obtain ⟨f, fce, l⟩ := q
      intro hL hs
      simp only [locSuffix] at hL hs
      obtain ⟨⟨n1, r1, p1⟩, ⟨n2, r2, p2⟩, hl, hl0, hl1, hf1, hf2⟩ := hs
      rw [p1, p2]
      simp only []
      rw [if_neg (by omega)]
      by_cases k : lv.loc > 2
      · rw [if_neg (by omega)]
        rw [if_pos k] at hL
        rw [space_ok, outs_ok b!"{" (by decide +kernel), outs_ok b!":" (by decide +kernel), outs_ok b!"}" (by decide +kernel),
          outsescape_true f r1 n1, outsescape_true fce r2 n2, shownUsage_noLF _ hf1, shownUsage_noLF _ hf2,
          outnum_ok m.junk hc.junk _ _ (by unfold IsLL llmin llmax; omega) (by unfold IsLL llmin llmax; omega), hl]
        simp only [Out.ok_bind, Out.pure_eq]
        subst hL
        rw [decide_eq_true (by simp : E ++ [_] ≠ [])]
        refine ⟨_, rfl, ?_⟩
        rw [suffix_step]
        cases E <;> simp
      · rw [if_pos (by omega)]
        rw [if_neg k] at hL
        subst hL
        exact ⟨[], by simp, by simp⟩
  obtain ⟨t, eLoc1, eLoc2⟩ := eLoc
  generalize hI : idSuffix lv.id c.id = I
  have eId : ∃ u, idPart m lv a (decide (E ++ L ≠ [])) = .ok u ∧
      suffixes (E ++ L) ++ u = suffixes (E ++ L ++ I) := by
    unfold idPart
    rw [if_neg ha]
    have hp := hc.id
    revert hp hI
    cases c.id with
    | none =>
      intro hI hp
      rw [show m.logid = none from hp]
      simp only [idSuffix] at hI
      subst hI
      refine ⟨[], ?_, by simp⟩
      split <;> rfl
    | some s =>
      intro hI hp
      obtain ⟨hn, rest, hp⟩ := hp
      rw [hp]
      simp only [idSuffix] at hI
      by_cases k : lv.id > 1
      · rw [if_neg (by omega)]
        simp only []
        cases s with
        | nil =>
          rw [if_neg (by simp)] at hI
          subst hI
          exact ⟨[], rfl, by simp⟩
        | cons b s =>
          rw [if_pos ⟨k, by simp⟩] at hI
          have hb : b ≠ 0 := hn b (by simp)
          rw [show rd (cstr (b :: s) rest) 0 = .ok b from rfl]
          simp only [Out.ok_bind]
          rw [if_neg hb, space_ok, outs_ok b!"[" (by decide +kernel), outs_ok b!"]" (by decide +kernel),
            outsescape_false _ rest hn]
          simp only [Out.ok_bind, Out.pure_eq]
          subst hI
          refine ⟨_, rfl, ?_⟩
          rw [suffix_step]
          cases hEL : E ++ L <;> simp
      · rw [if_pos (by omega)]
        rw [if_neg (by simp [k])] at hI
        subst hI
        exact ⟨[], rfl, by simp⟩
  obtain ⟨u, eId1, eId2⟩ := eId
  unfold record
  rw [eOn, timePart_ok m c hc a ha, prefixPart_ok a ha _ _ hc.name, eLv, prefixPart_ok a ha _ _ hc.ip, eMsg, eErr]
  simp only [Out.ok_bind]
  rw [eLoc1]
  simp only [Out.ok_bind]
  rw [eId1, eOff, show outs b!"\n" = .ok [10] from rfl]
  simp only [Out.ok_bind, Out.pure_eq]
  unfold line
  simp only []
  rw [hcol, hE, hL, hI, ← eId2, ← eLoc2]
  simp only [List.append_assoc]
  rfl

end Log
