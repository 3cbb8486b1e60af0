import Verif.Pem.Spec
import Verif.BaseLemmas
namespace Pem

def notEol (b : Byte) : Bool := b ≠ 13 ∧ b ≠ 10

/-- First line of a text and what follows it. -/
def first (s : Bytes) : Bytes := s.takeWhile notEol
def after (s : Bytes) : Bytes := s.dropWhile notEol

theorem first_after (s : Bytes) : first s ++ after s = s := List.takeWhile_append_dropWhile

theorem notEol_false {b : Byte} : notEol b = false ↔ (b = 13 ∨ b = 10) := by
  unfold notEol
  simp only [decide_eq_false_iff_not]
  by_cases h : b = 13 <;> simp [h]

theorem notEol_true {b : Byte} : notEol b = true ↔ (b ≠ 13 ∧ b ≠ 10) := by
  unfold notEol; simp

theorem after_head {s : Bytes} {c : Byte} {s' : Bytes} (h : after s = c :: s') : c = 13 ∨ c = 10 := by
  induction s with
  | nil => simp [after] at h
  | cons b s ih =>
    unfold after at h
    by_cases hb : notEol b = true
    · rw [List.dropWhile_cons_of_pos hb] at h; exact ih h
    · rw [List.dropWhile_cons_of_neg hb] at h
      cases h
      exact notEol_false.1 (by simpa using hb)

theorem splitLines_cons {s c s'} (h : after s = c :: s') : splitLines s = first s :: splitLines s' := by
  induction s with
  | nil => simp [after] at h
  | cons b s ih =>
    unfold after at h
    by_cases hb : notEol b = true
    · rw [List.dropWhile_cons_of_pos hb] at h
      have hb' := notEol_true.1 hb
      rw [splitLines, if_neg (by simp [hb'.1, hb'.2]), ih h]
      simp [first, List.takeWhile_cons_of_pos hb]
    · have hb' := notEol_false.1 (by simpa using hb)
      rw [List.dropWhile_cons_of_neg hb] at h
      cases h
      rw [splitLines, if_pos hb']
      simp [first, List.takeWhile_cons_of_neg hb]

theorem lineLoop_ok (buf : Bytes) (len : Nat) (hlen : len ≤ buf.length) (s : Bytes) :
    ∀ (i : Nat) (out : Bytes) (outlen : Nat), (buf.take len).drop i = s → i ≤ len → out.length = 65 → outlen ≤ 64 →
    ∃ pos out' n, lineLoop buf len i out outlen 64 = .ok (pos, out', n) ∧ out'.length = 65 ∧
      (if outlen + (first s).length > 64 then pos = len ∧ n = 0
       else n = outlen + (first s).length ∧ out'.take n = out.take outlen ++ first s ∧
         pos = if after s = [] then len else i + (first s).length + 1) := by
  induction s with
  | nil =>
    intro i out outlen hs hi ho hol
    have : len ≤ i := by
      have := congrArg List.length hs
      simp at this
      omega
    rw [lineLoop.eq_def, dif_neg (by omega)]
    refine ⟨_, _, _, rfl, ho, ?_⟩
    simp only [first, after, List.takeWhile_nil, List.dropWhile_nil, List.length_nil, Nat.add_zero, if_true, List.append_nil, and_true, true_and]
    rw [if_neg (by omega)]
    trivial
  | cons b s ih =>
    intro i out outlen hs hi ho hol
    have hlt : i < len := by
      rcases Nat.lt_or_ge i len with h | h
      · exact h
      · rw [List.drop_eq_nil_of_le (by simp; omega)] at hs; cases hs
    have hb : buf[i]? = some b := by
      have := congrArg List.head? hs
      rw [List.head?_drop] at this
      simp only [List.head?_cons] at this
      rw [List.getElem?_take_of_lt hlt] at this
      exact this
    have hs' : (buf.take len).drop (i + 1) = s := by
      rw [← List.drop_drop, hs]; rfl
    have hrd : rd buf i = .ok b := by unfold rd; rw [hb]
    rw [lineLoop.eq_def, dif_pos hlt, hrd]
    simp only []
    by_cases h13 : b = 13 ∨ b = 10
    · have hne : ¬ notEol b = true := by rw [notEol_true]; rcases h13 with h | h <;> simp [h]
      have hf : first (b :: s) = [] := by unfold first; rw [List.takeWhile_cons_of_neg hne]
      have ha : after (b :: s) = b :: s := by unfold after; rw [List.dropWhile_cons_of_neg hne]
      have fin : ∃ pos out' n, Out.ok (i + 1, out, outlen) = Out.ok (pos, out', n) ∧ out'.length = 65 ∧
          (if outlen + (first (b :: s)).length > 64 then pos = len ∧ n = 0
           else n = outlen + (first (b :: s)).length ∧ out'.take n = out.take outlen ++ first (b :: s) ∧
             pos = if after (b :: s) = [] then len else i + (first (b :: s)).length + 1) := by
        refine ⟨_, _, _, rfl, ho, ?_⟩
        rw [hf, ha]
        simp only [List.length_nil, Nat.add_zero, List.append_nil, true_and]
        rw [if_neg (by omega)]
        simp
      rcases h13 with h | h
      · rw [if_pos h]; exact fin
      · rw [if_neg (by rw [h]; decide), if_pos h]; exact fin
    · have hb' : b ≠ 13 ∧ b ≠ 10 := by
        constructor <;> (intro h; exact h13 (by simp [h]))
      have hpos : notEol b = true := notEol_true.2 hb'
      have hf : first (b :: s) = b :: first s := by unfold first; rw [List.takeWhile_cons_of_pos hpos]
      have ha : after (b :: s) = after s := by unfold after; rw [List.dropWhile_cons_of_pos hpos]
      rw [if_neg hb'.1, if_neg hb'.2]
      by_cases ho64 : outlen ≥ 64
      · rw [if_pos ho64]
        refine ⟨_, _, _, rfl, ho, ?_⟩
        rw [hf, if_pos (by simp only [List.length_cons]; omega)]
        exact ⟨rfl, rfl⟩
      · rw [if_neg ho64, wr_lt _ _ _ (by omega)]
        simp only []
        obtain ⟨pos, out', n, e1, e2, e3⟩ := ih (i + 1) (out.set outlen b) (outlen + 1) hs' (by omega) (by simp [ho]) (by omega)
        refine ⟨pos, out', n, e1, e2, ?_⟩
        rw [hf, ha]
        simp only [List.length_cons]
        by_cases hc : outlen + 1 + (first s).length > 64
        · rw [if_pos hc] at e3
          rw [if_pos (by omega)]
          exact e3
        · rw [if_neg hc] at e3
          rw [if_neg (by omega)]
          obtain ⟨f1, f2, f3⟩ := e3
          refine ⟨by omega, ?_, ?_⟩
          · rw [f2]
            have : (out.set outlen b).take (outlen + 1) = out.take outlen ++ [b] := by
              rw [List.take_add_one, List.take_set_of_le (by omega), List.getElem?_set_self (by omega)]
              rfl
            rw [this]; simp
          · rw [f3]; split <;> omega

/-- The lines with the part they go to, starting inside (`true`) or outside a certificate block. -/
def classify : Bool → List Bytes → List (Bytes × Bool)
  | _, [] => []
  | f, l :: ls =>
    let f' := if l ∈ certBegin then true else f
    (l, f') :: classify (if l ∈ certEnd then false else f') ls

def partOf (b : Bool) (xs : List (Bytes × Bool)) : List Bytes := (xs.filter (fun x => x.2 = b)).map (fun x => x.1)

theorem isBegin_iff (line l : Bytes) (h : line.take l.length = l) :
    isBegin line (l.length + 1) = true ↔ l ∈ certBegin := by
  unfold isBegin sameN certBegin
  simp only [Nat.add_sub_cancel, h, List.mem_cons, List.not_mem_nil, or_false, decide_eq_true_eq, Bool.decide_or, Bool.or_eq_true, Bool.decide_and, Bool.and_eq_true, Bool.decide_eq_true]
  constructor
  · rintro (⟨h1, h2⟩ | ⟨h1, h2⟩)
    · left
      have : l.length = 27 := by omega
      rw [this] at h2
      exact h2
    · right
      have : l.length = 32 := by omega
      rw [this] at h2
      exact h2
  · rintro (rfl | rfl)
    · left; exact ⟨rfl, by decide⟩
    · right; exact ⟨rfl, by decide⟩

theorem isEnd_iff (line l : Bytes) (h : line.take l.length = l) :
    isEnd line (l.length + 1) = true ↔ l ∈ certEnd := by
  unfold isEnd sameN certEnd
  simp only [Nat.add_sub_cancel, h, List.mem_cons, List.not_mem_nil, or_false, decide_eq_true_eq, Bool.decide_or, Bool.or_eq_true, Bool.decide_and, Bool.and_eq_true, Bool.decide_eq_true]
  constructor
  · rintro (⟨h1, h2⟩ | ⟨h1, h2⟩)
    · left
      have : l.length = 25 := by omega
      rw [this] at h2
      exact h2
    · right
      have : l.length = 30 := by omega
      rw [this] at h2
      exact h2
  · rintro (rfl | rfl)
    · left; exact ⟨rfl, by decide⟩
    · right; exact ⟨rfl, by decide⟩

structure LInv (N len : Nat) (s P S : Bytes) (f : Bool) (p : PS) : Prop where
  line : p.line.length = 65
  secN : p.sec.length = N
  pubN : p.pub.length = N
  lenN : len ≤ N
  posLe : p.pos ≤ len
  rest : (p.sec.take len).drop p.pos = s
  seclen : p.seclen = S.length
  publen : p.publen = P.length
  secLe : p.seclen ≤ p.pos
  pubLe : p.publen ≤ p.pos
  sec : p.sec.take p.seclen = S
  pub : p.pub.take p.publen = P
  flag : p.flagpub = f
  ends : s = [] ∨ s.getLast? = some 10

theorem after_ne_nil {s : Bytes} (h : s.getLast? = some 10) : after s ≠ [] := by
  intro e
  have h1 := first_after s
  rw [e, List.append_nil] at h1
  have h2 : (10 : Byte) ∈ first s := by
    rw [h1]
    exact List.mem_of_getLast? h
  have := List.all_takeWhile (p := notEol) (l := s)
  rw [List.all_eq_true] at this
  have := this 10 h2
  simp [notEol] at this

theorem round_ok {N len : Nat} {s P S : Bytes} {f : Bool} {p : PS} (h : LInv N len s P S f p) (hs : s ≠ []) :
    ∃ p', round len p = .ok p' ∧
      if (first s).length > 64 then LInv N len [] P S f p' ∧ p'.pos = len
      else ∃ c s', after s = c :: s' ∧ p'.pos = p.pos + (first s).length + 1 ∧
        if first s = [] then LInv N len s' P S f p'
        else
          let f' := if first s ∈ certBegin then true else f
          LInv N len s' (if f' then P ++ (first s ++ [10]) else P) (if f' then S else S ++ (first s ++ [10]))
            (if first s ∈ certEnd then false else f') p' := by
  have hend : s.getLast? = some 10 := by
    rcases h.ends with e | e
    · exact absurd e hs
    · exact e
  have hne := after_ne_nil hend
  obtain ⟨pos, out', n, e1, e2, e3⟩ := lineLoop_ok p.sec len (by rw [h.secN]; exact h.lenN) s p.pos p.line 0 h.rest h.posLe h.line (by omega)
  unfold round lineparser
  rw [e1, Out.ok_bind]
  simp only [Nat.zero_add] at e3
  have hslen : p.pos + s.length = len := by
    have := congrArg List.length h.rest
    have := h.lenN; have := h.secN; have := h.posLe
    simp at *
    omega
  by_cases hlong : (first s).length > 64
  · rw [if_pos hlong] at e3
    obtain ⟨rfl, rfl⟩ := e3
    simp only []
    rw [if_pos trivial]
    refine ⟨_, rfl, ?_⟩
    rw [if_pos hlong]
    have := h.posLe; have := h.secLe; have := h.pubLe
    refine ⟨⟨e2, h.secN, h.pubN, h.lenN, Nat.le_refl _, ?_, h.seclen, h.publen, by simp only []; omega, by simp only []; omega, h.sec, h.pub, h.flag, Or.inl rfl⟩, rfl⟩
    simp only []
    exact List.drop_eq_nil_of_le (by simp; omega)
  · rw [if_neg hlong] at e3
    obtain ⟨rfl, e4, e5⟩ := e3
    rw [if_neg hne] at e5
    simp only [List.take_zero, List.nil_append] at e4
    cases ha : after s with
    | nil => exact absurd ha hne
    | cons c s' =>
      have hsplit : s = first s ++ c :: s' := by rw [← ha]; exact (first_after s).symm
      have hsl : s.length = (first s).length + s'.length + 1 := by
        have := congrArg List.length hsplit
        rw [List.length_append, List.length_cons] at this
        omega
      have hends' : s' = [] ∨ s'.getLast? = some 10 := by
        rw [hsplit] at hend
        cases s' with
        | nil => exact Or.inl rfl
        | cons x xs =>
          right
          rw [List.getLast?_append, List.getLast?_cons_cons, List.getLast?_cons] at hend
          rw [List.getLast?_cons]
          simpa using hend
      have hrest' : ∀ sec : Bytes, (sec.take len).drop pos = (p.sec.take len).drop pos → (sec.take len).drop pos = s' := by
        intro sec e
        rw [e, e5, Nat.add_assoc, ← List.drop_drop, h.rest]
        have : (first s ++ c :: s').drop ((first s).length + 1) = s' := by
          rw [← List.drop_drop, List.drop_left]; rfl
        rw [← hsplit] at this
        exact this
      simp only []
      have := h.posLe; have := h.secLe; have := h.pubLe
      by_cases hz : (first s).length = 0
      · rw [if_pos hz]
        refine ⟨_, rfl, ?_⟩
        rw [if_neg hlong]
        refine ⟨c, s', rfl, e5, ?_⟩
        rw [if_pos (List.length_eq_zero_iff.1 hz)]
        exact ⟨e2, h.secN, h.pubN, h.lenN, by simp only []; omega, hrest' _ rfl, h.seclen, h.publen, by simp only []; omega, by simp only []; omega, h.sec, h.pub, h.flag, hends'⟩
      · rw [if_neg hz, wr_lt _ _ _ (by omega), Out.ok_bind]
        have hfne : first s ≠ [] := fun e => hz (by rw [e]; rfl)
        generalize hline : out'.set (first s).length 10 = line
        have hll : line.length = 65 := by rw [← hline]; simp [e2]
        have ht : line.take (first s).length = first s := by
          rw [← hline, List.take_set_of_le (by omega), e4]
        have ht1 : line.take ((first s).length + 1) = first s ++ [10] := by
          rw [List.take_add_one, ht, ← hline, List.getElem?_set_self (by omega)]
          rfl
        have hB := isBegin_iff line (first s) ht
        have hE := isEnd_iff line (first s) ht
        have hfl : (if isBegin line ((first s).length + 1) then true else p.flagpub) = (if first s ∈ certBegin then true else f) := by
          rw [h.flag]
          by_cases hb : first s ∈ certBegin
          · rw [if_pos hb, if_pos (hB.2 hb)]
          · rw [if_neg hb, if_neg (fun x => hb (hB.1 x))]
        have hfe : ∀ x : Bool, (if isEnd line ((first s).length + 1) then false else x) = (if first s ∈ certEnd then false else x) := by
          intro x
          by_cases hb : first s ∈ certEnd
          · rw [if_pos hb, if_pos (hE.2 hb)]
          · rw [if_neg hb, if_neg (fun x => hb (hE.1 x))]
        simp only [hfl, hfe]
        generalize hf' : (if first s ∈ certBegin then true else f) = f'
        have hN := h.lenN; have hsN := h.secN; have hpN := h.pubN
        cases f' with
        | true =>
          rw [if_pos rfl, copyN_full _ _ _ _ (by omega) (by omega)]
          simp only [Out.ok_bind, Out.pure_eq]
          refine ⟨_, rfl, ?_⟩
          rw [if_neg hlong]
          refine ⟨c, s', rfl, e5, ?_⟩
          rw [if_neg hfne]
          simp only [if_true]
          refine ⟨hll, h.secN, ?_, h.lenN, by simp only []; omega, hrest' _ rfl, h.seclen, ?_, by simp only []; omega, by simp only []; omega, h.sec, ?_, ?_, hends'⟩
          · simp only [List.length_append, List.length_take, List.length_drop]; omega
          · simp only [List.length_append, List.length_singleton, h.publen]
          · simp only []
            rw [ht1, h.pub, ← List.append_assoc, List.take_append_of_le_length (by simp [h.publen]), List.take_of_length_le (by simp [h.publen])]
          · rfl
        | false =>
          simp only [Bool.false_eq_true, if_false]
          rw [copyN_full _ _ _ _ (by omega) (by omega)]
          simp only [Out.ok_bind, Out.pure_eq]
          refine ⟨_, rfl, ?_⟩
          rw [if_neg hlong]
          refine ⟨c, s', rfl, e5, ?_⟩
          rw [if_neg hfne]
          refine ⟨hll, ?_, h.pubN, h.lenN, by simp only []; omega, ?_, ?_, h.publen, by simp only []; omega, by simp only []; omega, ?_, h.pub, ?_, hends'⟩
          · simp only [List.length_append, List.length_take, List.length_drop]; omega
          · simp only []
            apply hrest'
            rw [List.drop_take, List.drop_take]
            congr 1
            rw [ht1]
            have hk : pos = p.seclen + ((first s).length + 1) + (pos - (p.seclen + ((first s).length + 1))) := by omega
            generalize pos - (p.seclen + ((first s).length + 1)) = k at hk
            rw [hk, ← List.append_assoc, ← List.drop_drop, ← List.drop_drop (l := p.sec), List.drop_left' (by simp; omega), List.drop_drop, List.drop_drop]
            congr 1; omega
          · simp only [List.length_append, List.length_singleton, h.seclen]
          · simp only []
            rw [ht1, h.sec, ← List.append_assoc, List.take_append_of_le_length (by simp [h.seclen]), List.take_of_length_le (by simp [h.seclen])]
          · rfl

theorem usable_cons {s c s'} (h : after s = c :: s') : usable s =
    if (first s).length > 64 then [] else if first s = [] then usable s' else first s :: usable s' := by
  unfold usable
  rw [splitLines_cons h]
  by_cases h1 : (first s).length > 64
  · rw [if_pos h1, List.takeWhile_cons_of_neg (by simp; omega)]; rfl
  · rw [if_neg h1, List.takeWhile_cons_of_pos (by simp; omega)]
    by_cases h2 : first s = []
    · rw [if_pos h2, List.filter_cons_of_neg (by simp [h2])]
    · rw [if_neg h2, List.filter_cons_of_pos (by simp [h2])]

theorem text_cons (l : Bytes) (ls : List Bytes) : text (l :: ls) = l ++ [10] ++ text ls := by
  simp [text]

theorem loop_ok {N len : Nat} (k : Nat) : ∀ {s P S : Bytes} {f : Bool} {p : PS}, LInv N len s P S f p → s.length ≤ k →
    ∃ p', loop len k p = .ok (some p') ∧ p'.sec.length = N ∧ p'.pub.length = N ∧
      p'.seclen = (S ++ text (partOf false (classify f (usable s)))).length ∧
      p'.publen = (P ++ text (partOf true (classify f (usable s)))).length ∧
      p'.seclen ≤ len ∧ p'.publen ≤ len ∧
      p'.sec.take p'.seclen = S ++ text (partOf false (classify f (usable s))) ∧
      p'.pub.take p'.publen = P ++ text (partOf true (classify f (usable s))) := by
  induction k with
  | zero =>
    intro s P S f p h hk
    have hs : s = [] := List.length_eq_zero_iff.1 (by omega)
    subst hs
    have hpos : ¬ len > p.pos := by
      have := congrArg List.length h.rest
      have := h.lenN; have := h.secN
      simp at *
      omega
    have := h.posLe; have := h.secLe; have := h.pubLe
    unfold loop
    rw [if_neg hpos]
    refine ⟨p, rfl, h.secN, h.pubN, ?_, ?_, by omega, by omega, ?_, ?_⟩ <;>
      simp [usable, splitLines, classify, partOf, text, h.seclen, h.publen]
    · rw [← h.seclen]; exact h.sec
    · rw [← h.publen]; exact h.pub
  | succ k ih =>
    intro s P S f p h hk
    by_cases hs : s = []
    · subst hs
      have hpos : ¬ len > p.pos := by
        have := congrArg List.length h.rest
        have := h.lenN; have := h.secN
        simp at *
        omega
      have := h.posLe; have := h.secLe; have := h.pubLe
      unfold loop
      rw [if_neg hpos]
      refine ⟨p, rfl, h.secN, h.pubN, ?_, ?_, by omega, by omega, ?_, ?_⟩ <;>
        simp [usable, splitLines, classify, partOf, text, h.seclen, h.publen]
      · rw [← h.seclen]; exact h.sec
      · rw [← h.publen]; exact h.pub
    · have hpos : len > p.pos := by
        rcases Nat.lt_or_ge p.pos len with h1 | h1
        · exact h1
        · have := h.rest
          rw [List.drop_eq_nil_of_le (by simp; omega)] at this
          exact absurd this.symm hs
      have hend : s.getLast? = some 10 := by
        rcases h.ends with e | e
        · exact absurd e hs
        · exact e
      obtain ⟨p', e1, e2⟩ := round_ok h hs
      unfold loop
      rw [if_pos hpos, e1]
      simp only []
      cases ha : after s with
      | nil => exact absurd ha (after_ne_nil hend)
      | cons c s' =>
        rw [usable_cons ha]
        have hsl : s.length = (first s).length + s'.length + 1 := by
          have := congrArg List.length (first_after s)
          rw [ha, List.length_append, List.length_cons] at this
          omega
        by_cases hlong : (first s).length > 64
        · rw [if_pos hlong] at e2
          rw [if_pos hlong]
          have := ih e2.1 (by simp)
          simpa [usable, splitLines] using this
        · rw [if_neg hlong] at e2
          rw [if_neg hlong]
          obtain ⟨c2, s2, e3, _, e4⟩ := e2
          rw [ha] at e3
          cases e3
          by_cases hz : first s = []
          · rw [if_pos hz] at e4
            rw [if_pos hz]
            exact ih e4 (by omega)
          · rw [if_neg hz] at e4
            rw [if_neg hz]
            have := ih e4 (by omega)
            simp only [classify]
            generalize (if first s ∈ certBegin then true else f) = f' at *
            cases f' with
            | true =>
              have t1 : ∀ xs, text (partOf true ((first s, true) :: xs)) = (first s ++ [10]) ++ text (partOf true xs) := by
                intro xs; simp [partOf, text_cons]
              have t2 : ∀ xs, text (partOf false ((first s, true) :: xs)) = text (partOf false xs) := by
                intro xs; simp [partOf]
              rw [t1, t2, ← List.append_assoc]
              simpa using this
            | false =>
              have t1 : ∀ xs, text (partOf false ((first s, false) :: xs)) = (first s ++ [10]) ++ text (partOf false xs) := by
                intro xs; simp [partOf, text_cons]
              have t2 : ∀ xs, text (partOf true ((first s, false) :: xs)) = text (partOf true xs) := by
                intro xs; simp [partOf]
              rw [t1, t2, ← List.append_assoc]
              simpa using this

theorem splitLines_eol (d : Bytes) : splitLines (d ++ [10]) = splitLines d ∨ splitLines (d ++ [10]) = splitLines d ++ [[]] := by
  induction d with
  | nil => right; rfl
  | cons b d ih =>
    rw [List.cons_append, splitLines, splitLines]
    by_cases hb : b = 13 ∨ b = 10
    · rw [if_pos hb, if_pos hb]
      rcases ih with ih | ih
      · left; rw [ih]
      · right; rw [ih]; rfl
    · rw [if_neg hb, if_neg hb]
      rcases ih with ih | ih
      · left; rw [ih]
      · rw [ih]
        cases hsd : splitLines d with
        | nil => left; rfl
        | cons l ls => right; rfl

theorem usable_eol (d : Bytes) : usable (d ++ [10]) = usable d := by
  unfold usable
  rcases splitLines_eol d with h | h
  · rw [h]
  · rw [h]
    generalize splitLines d = ls
    induction ls with
    | nil => rfl
    | cons l ls ih =>
      rw [List.cons_append]
      by_cases hl : l.length ≤ 64
      · rw [List.takeWhile_cons_of_pos (by simpa using hl), List.takeWhile_cons_of_pos (by simpa using hl)]
        rw [List.filter_cons, List.filter_cons, ih]
      · rw [List.takeWhile_cons_of_neg (by simpa using hl), List.takeWhile_cons_of_neg (by simpa using hl)]

theorem classify_fst (f : Bool) (ls : List Bytes) : (classify f ls).map (fun x => x.1) = ls := by
  induction ls generalizing f with
  | nil => rfl
  | cons l ls ih => simp [classify, ih]

theorem classify_label (ls : List Bytes) : ∀ (f : Bool) (i : Nat) (l : Bytes) (b : Bool), (classify f ls)[i]? = some (l, b) →
    (b = true ↔ InCert ls i ∨ (f = true ∧ ∀ k, k < i → ∀ l, ls[k]? = some l → l ∉ certEnd)) := by
  induction ls with
  | nil => intro f i l b h; simp [classify] at h
  | cons x xs ih =>
    intro f i l b h
    cases i with
    | zero =>
      simp only [classify, List.getElem?_cons_zero, Option.some.injEq, Prod.mk.injEq] at h
      obtain ⟨rfl, rfl⟩ := h
      constructor
      · intro hf
        by_cases hx : x ∈ certBegin
        · left
          exact ⟨0, Nat.le_refl _, ⟨x, rfl, hx⟩, by omega⟩
        · rw [if_neg hx] at hf
          right
          exact ⟨hf, by omega⟩
      · rintro (⟨j, h1, ⟨l, h2, h3⟩, _⟩ | ⟨h1, _⟩)
        · have : j = 0 := by omega
          subst this
          simp only [List.getElem?_cons_zero, Option.some.injEq] at h2
          subst h2
          rw [if_pos h3]
        · rw [h1]; simp
    | succ i =>
      simp only [classify, List.getElem?_cons_succ] at h
      rw [ih _ _ _ _ h]
      constructor
      · rintro (⟨j, h1, ⟨y, h2, h3⟩, h4⟩ | ⟨h1, h2⟩)
        · left
          refine ⟨j + 1, by omega, ⟨y, by simpa using h2, h3⟩, ?_⟩
          intro k hk1 hk2 z hz
          cases k with
          | zero => omega
          | succ k => exact h4 k (by omega) (by omega) z (by simpa using hz)
        · by_cases hE : x ∈ certEnd
          · rw [if_pos hE] at h1; cases h1
          rw [if_neg hE] at h1
          have hall : ∀ k, k < i + 1 → ∀ z, (x :: xs)[k]? = some z → z ∉ certEnd := by
            intro k hk z hz
            cases k with
            | zero => simp at hz; subst hz; exact hE
            | succ k => exact h2 k (by omega) z (by simpa using hz)
          by_cases hx : x ∈ certBegin
          · left
            exact ⟨0, by omega, ⟨x, rfl, hx⟩, fun k _ hk z hz => hall k hk z hz⟩
          · rw [if_neg hx] at h1
            right
            exact ⟨h1, hall⟩
      · have tail : ∀ (Q : ∀ k, k < i + 1 → ∀ z, (x :: xs)[k]? = some z → z ∉ certEnd), x ∉ certEnd ∧
            ∀ k, k < i → ∀ z, xs[k]? = some z → z ∉ certEnd := by
          intro Q
          exact ⟨Q 0 (by omega) x rfl, fun k hk z hz => Q (k + 1) (by omega) z (by simpa using hz)⟩
        rintro (⟨j, h1, ⟨y, h2, h3⟩, h4⟩ | ⟨h1, h2⟩)
        · cases j with
          | zero =>
            obtain ⟨t1, t2⟩ := tail (fun k hk z hz => h4 k (by omega) hk z hz)
            simp only [List.getElem?_cons_zero, Option.some.injEq] at h2
            subst h2
            right
            rw [if_neg t1, if_pos h3]
            exact ⟨rfl, t2⟩
          | succ j =>
            left
            refine ⟨j, by omega, ⟨y, by simpa using h2, h3⟩, ?_⟩
            intro k hk1 hk2 z hz
            exact h4 (k + 1) (by omega) (by omega) z (by simpa using hz)
        · obtain ⟨t1, t2⟩ := tail h2
          right
          rw [if_neg t1, h1]
          exact ⟨by simp, t2⟩

theorem classify_selected (ls : List Bytes) : Selected ls (partOf true (classify false ls)) (InCert ls) ∧
    Selected ls (partOf false (classify false ls)) (fun i => ¬ InCert ls i) := by
  have hlen : (classify false ls).length = ls.length := by
    have := congrArg List.length (classify_fst false ls)
    simpa using this
  have lab : ∀ i l b, (classify false ls)[i]? = some (l, b) → (b = true ↔ InCert ls i) := by
    intro i l b h
    rw [classify_label ls false i l b h]
    simp
  have hz : ∀ g : Bytes × Bool → Bool, ls.zip ((classify false ls).map g) = (classify false ls).map (fun x => (x.1, g x)) := by
    intro g
    rw [← List.zip_map', classify_fst]
  constructor
  · refine ⟨(classify false ls).map (fun x => x.2), by simp [hlen], ?_, ?_⟩
    · intro i b h
      simp only [List.getElem?_map, Option.map_eq_some_iff] at h
      obtain ⟨⟨l, b2⟩, h1, h2⟩ := h
      subst h2
      exact lab i l b2 h1
    · rw [hz]
      unfold partOf
      rw [List.filter_map, List.map_map]
      simp [Function.comp_def]
  · refine ⟨(classify false ls).map (fun x => !x.2), by simp [hlen], ?_, ?_⟩
    · intro i b h
      simp only [List.getElem?_map, Option.map_eq_some_iff] at h
      obtain ⟨⟨l, b2⟩, h1, h2⟩ := h
      subst h2
      have := lab i l b2 h1
      simp only []
      rw [← this]
      simp
    · rw [hz]
      unfold partOf
      rw [List.filter_map, List.map_map]
      simp [Function.comp_def]

theorem classify_append (f : Bool) (a b : List Bytes) :
    classify f (a ++ b) = classify f a ++ classify (a.foldl (fun f l => if l ∈ certEnd then false else if l ∈ certBegin then true else f) f) b := by
  induction a generalizing f with
  | nil => rfl
  | cons l ls ih => simp [classify, ih]

theorem partOf_append (c : Bool) (a b : List (Bytes × Bool)) : partOf c (a ++ b) = partOf c a ++ partOf c b := by
  simp [partOf]

theorem plain_not_marker {l : Bytes} (h : ¬ dashes <+: l) : l ∉ certBegin ∧ l ∉ certEnd := by
  constructor
  · intro hm
    simp only [certBegin, List.mem_cons, List.not_mem_nil, or_false] at hm
    apply h
    rcases hm with rfl | rfl <;> decide
  · intro hm
    simp only [certEnd, List.mem_cons, List.not_mem_nil, or_false] at hm
    apply h
    rcases hm with rfl | rfl <;> decide

theorem classify_plain (f : Bool) (ls : List Bytes) (h : ∀ l ∈ ls, ¬ dashes <+: l) :
    partOf f (classify f ls) = ls ∧ partOf (!f) (classify f ls) = [] ∧
    ls.foldl (fun f l => if l ∈ certEnd then false else if l ∈ certBegin then true else f) f = f := by
  induction ls with
  | nil => exact ⟨rfl, rfl, rfl⟩
  | cons l ls ih =>
    obtain ⟨h1, h2⟩ := plain_not_marker (h l (by simp))
    obtain ⟨i1, i2, i3⟩ := ih (fun x hx => h x (by simp [hx]))
    simp only [classify, if_neg h1, if_neg h2, List.foldl_cons]
    refine ⟨?_, ?_, i3⟩
    · simp only [partOf] at i1 ⊢
      rw [List.filter_cons_of_pos (by simp), List.map_cons, i1]
    · simp only [partOf] at i2 ⊢
      rw [List.filter_cons_of_neg (by simp)]
      exact i2

theorem append_inj_mid {a b c x : Bytes} (h : a ++ x ++ c = a ++ b ++ c) : x = b := by
  rw [List.append_assoc, List.append_assoc] at h
  exact List.append_cancel_right (List.append_cancel_left h)

theorem begin_marker (label : Bytes) : (b!"-----BEGIN " ++ label ++ b!"-----" ∈ certBegin ↔
      (label = b!"CERTIFICATE" ∨ label = b!"X509 CERTIFICATE")) ∧
    b!"-----BEGIN " ++ label ++ b!"-----" ∉ certEnd := by
  constructor
  · simp only [certBegin, List.mem_cons, List.not_mem_nil, or_false]
    constructor
    · rintro (h | h)
      · left; exact append_inj_mid (a := b!"-----BEGIN ") (c := b!"-----") (h.trans rfl)
      · right; exact append_inj_mid (a := b!"-----BEGIN ") (c := b!"-----") (h.trans rfl)
    · rintro (rfl | rfl)
      · left; rfl
      · right; rfl
  · simp only [certEnd, List.mem_cons, List.not_mem_nil, or_false]
    rintro (h | h)
    · have := congrArg (List.take 6) h
      simp at this
    · have := congrArg (List.take 6) h
      simp at this

theorem end_marker (label : Bytes) : (b!"-----END " ++ label ++ b!"-----" ∈ certEnd ↔
      (label = b!"CERTIFICATE" ∨ label = b!"X509 CERTIFICATE")) ∧
    b!"-----END " ++ label ++ b!"-----" ∉ certBegin := by
  constructor
  · simp only [certEnd, List.mem_cons, List.not_mem_nil, or_false]
    constructor
    · rintro (h | h)
      · left; exact append_inj_mid (a := b!"-----END ") (c := b!"-----") (h.trans rfl)
      · right; exact append_inj_mid (a := b!"-----END ") (c := b!"-----") (h.trans rfl)
    · rintro (rfl | rfl)
      · left; rfl
      · right; rfl
  · simp only [certBegin, List.mem_cons, List.not_mem_nil, or_false]
    rintro (h | h)
    · have := congrArg (List.take 6) h
      simp at this
    · have := congrArg (List.take 6) h
      simp at this

theorem classify_item (it : Item) (h : it.Ok) :
    partOf true (classify false it.lines) = (if it.isCert then it.lines else []) ∧
    partOf false (classify false it.lines) = (if it.isCert then [] else it.lines) ∧
    it.lines.foldl (fun f l => if l ∈ certEnd then false else if l ∈ certBegin then true else f) false = false := by
  cases it with
  | line l =>
    obtain ⟨h1, h2, h3⟩ := classify_plain false [l] (by intro x hx; rw [List.mem_singleton.1 hx]; exact h)
    exact ⟨h2, h1, h3⟩
  | block label body =>
    obtain ⟨m1, m2⟩ := begin_marker label
    obtain ⟨m3, m4⟩ := end_marker label
    have hl : (Item.block label body).lines = (b!"-----BEGIN " ++ label ++ b!"-----") :: (body ++ [b!"-----END " ++ label ++ b!"-----"]) := rfl
    rw [hl]
    generalize b!"-----BEGIN " ++ label ++ b!"-----" = B at *
    generalize b!"-----END " ++ label ++ b!"-----" = E at *
    by_cases hc : label = b!"CERTIFICATE" ∨ label = b!"X509 CERTIFICATE"
    · have hB := m1.2 hc
      have hE := m3.2 hc
      obtain ⟨h1, h2, h3⟩ := classify_plain true body h
      have hi : (Item.block label body).isCert = true := by simpa [Item.isCert] using hc
      rw [hi, if_pos rfl, if_pos rfl]
      simp only [classify, List.foldl_append, List.foldl_cons, List.foldl_nil, if_pos hB, if_neg m2]
      rw [classify_append, h3]
      simp only [classify, if_neg m4, if_pos hE]
      refine ⟨?_, ?_, trivial⟩
      · have : ∀ xs, partOf true ((B, true) :: xs) = B :: partOf true xs := fun _ => by simp [partOf]
        rw [this, partOf_append, h1]
        simp [partOf]
      · have : ∀ xs, partOf false ((B, true) :: xs) = partOf false xs := fun _ => by simp [partOf]
        rw [this, partOf_append]
        rw [show partOf false (classify true body) = [] from h2]
        simp [partOf]
    · have hB := fun x => hc (m1.1 x)
      have hE := fun x => hc (m3.1 x)
      obtain ⟨h1, h2, h3⟩ := classify_plain false body h
      have hi : (Item.block label body).isCert = false := by simpa [Item.isCert] using hc
      rw [hi]
      simp only [classify, List.foldl_append, List.foldl_cons, List.foldl_nil, if_neg hB, if_neg m2, Bool.false_eq_true, if_false]
      rw [classify_append, h3]
      simp only [classify, if_neg m4, if_neg hE]
      refine ⟨?_, ?_, trivial⟩
      · have : ∀ xs, partOf true ((B, false) :: xs) = partOf true xs := fun _ => by simp [partOf]
        rw [this, partOf_append]
        rw [show partOf true (classify false body) = [] from h2]
        simp [partOf]
      · have : ∀ xs, partOf false ((B, false) :: xs) = B :: partOf false xs := fun _ => by simp [partOf]
        rw [this, partOf_append, h1]
        simp [partOf]

theorem classify_items (items : List Item) (h : ∀ it ∈ items, it.Ok) :
    partOf true (classify false (items.flatMap Item.lines)) = (items.filter Item.isCert).flatMap Item.lines ∧
    partOf false (classify false (items.flatMap Item.lines)) = (items.filter (fun it => !it.isCert)).flatMap Item.lines := by
  induction items with
  | nil => exact ⟨rfl, rfl⟩
  | cons it items ih =>
    obtain ⟨h1, h2, h3⟩ := classify_item it (h it (by simp))
    obtain ⟨i1, i2⟩ := ih (fun x hx => h x (by simp [hx]))
    rw [List.flatMap_cons, classify_append, h3, partOf_append, partOf_append, h1, h2, i1, i2]
    cases hc : it.isCert with
    | true => simp [List.filter_cons, hc]
    | false => simp [List.filter_cons, hc]

end Pem
