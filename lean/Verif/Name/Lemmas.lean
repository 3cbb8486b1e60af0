import Verif.BaseLemmas
import Verif.Name.Model
import Verif.Name.Spec
/-
Helper lemmas about the host-name parser.
-/
namespace Name
open Spec

/-- The non-empty dot-separated pieces of a text. -/
def pieces (s : Bytes) : List Bytes :=
  match s with
  | [] => []
  | b :: m =>
    if b = c! '.' then pieces m
    else (b :: m.takeWhile (· ≠ c! '.')) :: pieces (m.dropWhile (· ≠ c! '.'))
termination_by s.length
decreasing_by
  · simp
  · have := (List.dropWhile_sublist (l := m) (· ≠ c! '.')).length_le
    simp only [List.length_cons]; omega

theorem okChar_iff (c : Byte) : okChar c = true ↔ LabelChar c := by
  unfold okChar LabelChar
  simp only [Bool.or_eq_true, Bool.and_eq_true, decide_eq_true_eq, ge_iff_le, beq_iff_eq,
    UInt8.le_iff_toNat_le]
  simp only [UInt8.reduceToNat, or_assoc]

theorem labelChar_ne_dot {c : Byte} (h : LabelChar c) : c ≠ c! '.' := by
  rintro rfl; revert h; decide

theorem labelLen_ok (s rest : Bytes) (hs : NoNul s) :
    labelLen (cstr s rest) = .ok (s.takeWhile (· ≠ c! '.')).length := by
  induction s with
  | nil => simp [cstr, labelLen]
  | cons b s ih =>
    rw [cstr_cons, labelLen, if_neg hs.head]
    by_cases h : b = c! '.'
    · simp [h]
    · rw [if_neg h, ih hs.tail]
      simp [h]

theorem checkChars_ok (l m : Bytes) :
    checkChars (l ++ m) l.length = .ok (decide (∀ c ∈ l, LabelChar c)) := by
  induction l with
  | nil => simp [checkChars]
  | cons c l ih =>
    simp only [List.cons_append, List.length_cons, checkChars]
    by_cases h : LabelChar c
    · rw [if_pos ((okChar_iff c).mpr h), ih]
      simp [h]
    · rw [if_neg (fun h' => h ((okChar_iff c).mp h'))]
      simp [h]

theorem replicate_split (n k : Nat) (h : k < n) :
    List.replicate (n - k) (0 : Byte) = 0 :: List.replicate (n - (k + 1)) 0 := by
  rw [← List.replicate_succ]; congr 1; omega

theorem copyLabel_ok (l m pre : Bytes) (tl : Bytes) (hpre : pre.length ≤ 256) :
    copyLabel (pre ++ (List.replicate (256 - pre.length) 0 ++ tl)) pre.length (l ++ m) l.length =
      .ok (if l = [] ∨ pre.length + l.length ≤ 255 then
          some (pre ++ l ++ (List.replicate (256 - (pre.length + l.length)) 0 ++ tl),
            pre.length + l.length)
        else none) := by
  induction l generalizing pre with
  | nil => simp [copyLabel]
  | cons c l ih =>
    simp only [List.cons_append, List.length_cons, copyLabel]
    by_cases h : pre.length ≥ 255
    · rw [if_pos h, if_neg]
      simp; omega
    · rw [if_neg h, replicate_split 256 pre.length (by omega), List.cons_append, wr_append]
      simp only
      have := ih (pre ++ [c]) (by simp; omega)
      simp only [List.length_append, List.length_singleton, List.append_assoc, List.cons_append,
        List.nil_append] at this
      rw [this]
      have e : pre.length + 1 + l.length = pre.length + (l.length + 1) := by omega
      rw [e]
      congr 1
      by_cases h2 : pre.length + (l.length + 1) ≤ 255
      · rw [if_pos (.inr h2), if_pos (.inr h2)]
        simp
      · rw [if_neg, if_neg]
        · simp; omega
        · rintro (h3 | h3)
          · subst h3; simp at h2; omega
          · exact h2 h3

theorem getLast?_rd (l m : Bytes) (h : l ≠ []) :
    rd (l ++ m) (l.length - 1) = .ok (l.getLast h) := by
  have hl : 0 < l.length := List.length_pos_iff.mpr h
  rw [rd_append_left _ _ _ (by omega), rd_lt _ _ (by omega), List.getLast_eq_getElem]

open Classical in
theorem oneLabel_ok (l m pre tl : Bytes) (hl : l ≠ []) (hpre : pre.length ≤ 256) :
    oneLabel (pre ++ (List.replicate (256 - pre.length) 0 ++ tl)) pre.length (l ++ m) l.length =
      .ok (if Label l ∧ pre.length + (wireLabel l).length ≤ 255 then
          some (pre ++ wireLabel l ++ (List.replicate (256 - (pre.length + (wireLabel l).length)) 0 ++ tl),
            pre.length + (wireLabel l).length)
        else none) := by
  have hlen : (wireLabel l).length = l.length + 1 := by simp [wireLabel]
  rw [hlen]
  unfold oneLabel
  by_cases h63 : l.length > 63
  · rw [if_pos h63, if_neg]
    · rfl
    · rintro ⟨h, -⟩; have := h.short; omega
  rw [if_neg h63, checkChars_ok]
  simp only [Out.ok_bind]
  by_cases hch : ∀ c ∈ l, LabelChar c
  rotate_left
  · rw [if_pos (by simpa using hch), if_neg]
    · rfl
    · rintro ⟨h, -⟩; exact hch h.chars
  rw [if_neg (by simpa using hch)]
  have hl0 : l.length ≠ 0 := by simpa using hl
  obtain ⟨c0, l', rfl⟩ : ∃ c0 l', l = c0 :: l' := by
    cases l with
    | nil => exact absurd rfl hl
    | cons a b => exact ⟨a, b, rfl⟩
  have hfirst : rd (c0 :: l' ++ m) 0 = .ok c0 := rfl
  rw [hfirst]
  simp only [Out.ok_bind]
  by_cases h1 : c0 = c! '-'
  · rw [if_pos h1, if_neg]
    · rfl
    · rintro ⟨h, -⟩; exact h.first (by simp [h1])
  rw [if_neg h1, if_neg hl0, getLast?_rd _ _ hl]
  simp only [Out.ok_bind]
  have hlast : (c0 :: l').getLast? = some ((c0 :: l').getLast hl) := List.getLast?_eq_some_getLast hl
  by_cases h2 : (c0 :: l').getLast hl = c! '-'
  · rw [if_pos h2, if_neg]
    · rfl
    · rintro ⟨h, -⟩; exact h.last (by rw [hlast, h2])
  rw [if_neg h2]
  have hlab : Label (c0 :: l') := ⟨hl, by omega, hch, by simpa using h1, by rw [hlast]; simpa using h2⟩
  by_cases h3 : pre.length ≥ 255
  · rw [if_pos h3, if_neg]
    · rfl
    · rintro ⟨-, h⟩; omega
  rw [if_neg h3, replicate_split 256 pre.length (by omega), List.cons_append, wr_append]
  simp only [Out.ok_bind]
  have := copyLabel_ok (c0 :: l') m (pre ++ [UInt8.ofNat (c0 :: l').length]) tl (by simp; omega)
  simp only [List.length_append, List.length_singleton, List.append_assoc, List.cons_append,
    List.nil_append] at this
  simp only [List.cons_append]
  rw [this]
  have e : pre.length + 1 + (c0 :: l').length = pre.length + ((c0 :: l').length + 1) := by omega
  rw [e]
  congr 1
  by_cases h4 : pre.length + ((c0 :: l').length + 1) ≤ 255
  · rw [if_pos (.inr h4), if_pos ⟨hlab, h4⟩]
    simp [wireLabel]
  · rw [if_neg, if_neg]
    · rintro ⟨-, h⟩; exact h4 h
    · rintro (h | h)
      · cases h
      · exact h4 h

theorem pieces_cons (b : Byte) (m : Bytes) (h : b ≠ c! '.') :
    pieces (b :: m) = (b :: m.takeWhile (· ≠ c! '.')) :: pieces (m.dropWhile (· ≠ c! '.')) := by
  rw [pieces, if_neg h]
theorem pieces_dot (m : Bytes) : pieces (c! '.' :: m) = pieces m := by
  rw [pieces, if_pos rfl]
theorem pieces_nil : pieces [] = [] := by rw [pieces]

/-- The length of the encoded labels, without the root. -/
def encLen (ls : List Bytes) : Nat := (ls.flatMap wireLabel).length

open Classical in
theorem loop_ok (s rest tl : Bytes) (hs : NoNul s) : ∀ (pre : Bytes), pre.length ≤ 255 →
    loop (pre ++ (List.replicate (256 - pre.length) 0 ++ tl)) pre.length (cstr s rest) =
      .ok (if (∀ l ∈ pieces s, Label l) ∧ pre.length + encLen (pieces s) ≤ 255 then
          some (pre ++ (pieces s).flatMap wireLabel ++
              (List.replicate (256 - (pre.length + encLen (pieces s))) 0 ++ tl),
            pre.length + encLen (pieces s))
        else none) := by
  induction hn : s.length using Nat.strongRecOn generalizing s with
  | ind n ih =>
    intro pre hpre
    match s, hs, hn with
    | [], _, _ =>
      rw [cstr_nil, loop, if_pos rfl, pieces_nil]
      simp [encLen, hpre]
    | b :: m, hs, hn =>
      rw [cstr_cons, loop, if_neg hs.head]
      by_cases hd : b = c! '.'
      · rw [if_pos hd, ih m.length (by simp at hn; omega) m hs.tail rfl pre hpre, hd, pieces_dot]
      · rw [if_neg hd, ← cstr_cons, labelLen_ok _ _ hs]
        simp only
        have htw : (b :: m).takeWhile (· ≠ c! '.') = b :: m.takeWhile (· ≠ c! '.') := by
          simp [hd]
        have hsplit : cstr (b :: m) rest = (b :: m.takeWhile (· ≠ c! '.')) ++
            cstr (m.dropWhile (· ≠ c! '.')) rest := by
          have e := List.takeWhile_append_dropWhile (p := (· ≠ c! '.')) (l := m)
          show b :: (m ++ _) = b :: (_ ++ (_ ++ _))
          rw [← List.append_assoc, e]
        rw [htw, hsplit, oneLabel_ok _ _ _ _ (by simp) (by omega)]
        generalize hl : b :: m.takeWhile (· ≠ c! '.') = l
        have hl0 : l ≠ [] := by rw [← hl]; simp
        have hll : l.length ≠ 0 := by simpa using hl0
        have hpc : pieces (b :: m) = l :: pieces (m.dropWhile (· ≠ c! '.')) := by
          rw [pieces_cons _ _ hd, hl]
        rw [hpc]
        have henc : encLen (l :: pieces (m.dropWhile (· ≠ c! '.'))) =
            (wireLabel l).length + encLen (pieces (m.dropWhile (· ≠ c! '.'))) := by
          simp [encLen]
        rw [henc]
        by_cases hok : Label l ∧ pre.length + (wireLabel l).length ≤ 255
        · rw [if_pos hok]
          simp only [if_neg hll, List.drop_left]
          have hlen := (List.dropWhile_sublist (l := m) (· ≠ c! '.')).length_le
          have hnn : NoNul (m.dropWhile (· ≠ c! '.')) :=
            fun x hx => hs x (List.mem_cons_of_mem _ ((List.dropWhile_sublist _).subset hx))
          have := ih _ (by simp at hn; omega) (m.dropWhile (· ≠ c! '.')) hnn rfl
            (pre ++ wireLabel l) (by simp; omega)
          simp only [List.length_append] at this
          rw [this]
          congr 1
          simp only [List.forall_mem_cons, hok.1, true_and, Nat.add_assoc]
          split
          · simp
          · rfl
        · rw [if_neg hok]
          simp only
          rw [if_neg]
          simp only [List.forall_mem_cons]
          rintro ⟨⟨h1, -⟩, h2⟩
          exact hok ⟨h1, by omega⟩

/-- No two adjacent dots. -/
def NoDD : Bytes → Prop
  | [] => True
  | b :: m => ¬ (b = c! '.' ∧ m.head? = some (c! '.')) ∧ NoDD m

instance decNoDD : (s : Bytes) → Decidable (NoDD s)
  | [] => inferInstanceAs (Decidable True)
  | b :: m => by
    have := decNoDD m
    unfold NoDD; infer_instance

theorem hasDotDot_ok (s rest : Bytes) (hs : NoNul s) :
    hasDotDot (cstr s rest) = .ok (decide ¬ NoDD s) := by
  induction s with
  | nil => simp [cstr, hasDotDot, NoDD]
  | cons b m ih =>
    rw [cstr_cons, hasDotDot, if_neg hs.head]
    have hrd : ∃ b1, rd (cstr m rest) 0 = .ok b1 ∧ (b1 = c! '.' ↔ m.head? = some (c! '.')) := by
      cases m with
      | nil => exact ⟨0, rfl, by simp⟩
      | cons b1 m => exact ⟨b1, rfl, by simp⟩
    obtain ⟨b1, h1, h2⟩ := hrd
    by_cases hd : b = c! '.'
    · rw [if_pos hd, h1]
      simp only [Out.ok_bind]
      by_cases hd1 : b1 = c! '.'
      · rw [if_pos hd1]
        simp [NoDD, hd, h2.mp hd1]
      · rw [if_neg hd1, ih hs.tail]
        have : m.head? ≠ some (c! '.') := fun h => hd1 (h2.mpr h)
        simp [NoDD, this]
    · rw [if_neg hd, ih hs.tail]
      simp [NoDD, hd]

theorem joinDots_cons (l : Bytes) (ls : List Bytes) (h : ls ≠ []) :
    joinDots (l :: ls) = l ++ c! '.' :: joinDots ls := by
  cases ls with
  | nil => exact absurd rfl h
  | cons a b => rfl

theorem tw_dw (m : Bytes) :
    m.dropWhile (· ≠ c! '.') = [] ∨ ∃ t, m.dropWhile (· ≠ c! '.') = c! '.' :: t := by
  induction m with
  | nil => exact .inl rfl
  | cons b m ih =>
    by_cases h : b = c! '.'
    · right; exact ⟨m, by simp [h]⟩
    · simpa [h] using ih

theorem NoDD_drop {xs ys : Bytes} (h : NoDD (xs ++ ys)) : NoDD ys := by
  induction xs with
  | nil => exact h
  | cons x xs ih => exact ih h.2

/-- A text without empty labels is a form of the name made of its pieces. -/
theorem nameOf_pieces (s : Bytes) (h : NoDD s) (hd : s.head? ≠ some (c! '.')) :
    NameOf s (pieces s) := by
  have key : ∀ n, ∀ s : Bytes, s.length = n → NoDD s → s ≠ [] → s.head? ≠ some (c! '.') →
      pieces s ≠ [] ∧ (s = joinDots (pieces s) ∨ s = joinDots (pieces s) ++ [c! '.']) := by
    intro n
    induction n using Nat.strongRecOn with
    | ind n ih =>
      intro s hn hdd hne hh
      match s, hn, hdd, hne, hh with
      | b :: m, hn, hdd, _, hh =>
        have hb : b ≠ c! '.' := by simpa using hh
        rw [pieces_cons _ _ hb]
        refine ⟨by simp, ?_⟩
        have hm := List.takeWhile_append_dropWhile (p := (· ≠ c! '.')) (l := m)
        rcases tw_dw m with h0 | ⟨t, ht⟩
        · rw [h0, pieces_nil]
          rw [h0, List.append_nil] at hm
          left
          rw [hm]; rfl
        · rw [ht, pieces_dot]
          rw [ht] at hm
          have hddt : NoDD (c! '.' :: t) := by
            have : NoDD (b :: m) := hdd
            rw [← hm] at this
            exact NoDD_drop (xs := b :: m.takeWhile (· ≠ c! '.')) this
          have hth : t.head? ≠ some (c! '.') := fun h => hddt.1 ⟨rfl, h⟩
          by_cases ht0 : t = []
          · subst ht0
            rw [pieces_nil]
            right
            show b :: m = b :: (_ ++ _)
            rw [hm]
          · have hlen : t.length < n := by
              have := congrArg List.length hm
              simp at this hn
              omega
            obtain ⟨h1, h2⟩ := ih t.length hlen t rfl hddt.2 ht0 hth
            rw [joinDots_cons _ _ h1]
            rcases h2 with h2 | h2
            · left
              rw [← h2, List.cons_append, hm]
            · right
              rw [List.append_assoc, List.cons_append (as := joinDots (pieces t)), ← h2,
                List.cons_append, hm]
  by_cases hs : s = []
  · subst hs; rw [pieces_nil]; exact .empty
  · obtain ⟨h1, h2⟩ := key _ s rfl h hs hd
    rcases h2 with h2 | h2
    · have := NameOf.relative h1
      rwa [← h2] at this
    · have := NameOf.absolute h1
      rwa [← h2] at this

theorem label_noDot {l : Bytes} (h : Label l) : ∀ c ∈ l, c ≠ c! '.' :=
  fun c hc => labelChar_ne_dot (h.chars c hc)

theorem tw_label (l t : Bytes) (h : ∀ c ∈ l, c ≠ c! '.') :
    (l ++ c! '.' :: t).takeWhile (· ≠ c! '.') = l ∧
    (l ++ c! '.' :: t).dropWhile (· ≠ c! '.') = c! '.' :: t := by
  induction l with
  | nil => simp
  | cons a l ih =>
    have ha : a ≠ c! '.' := h a (by simp)
    have := ih (fun c hc => h c (by simp [hc]))
    simp only [List.cons_append, ne_eq, ha, not_false_eq_true, decide_true,
      List.takeWhile_cons_of_pos, List.dropWhile_cons_of_pos, List.cons.injEq, true_and]
    exact this

theorem tw_label_nil (l : Bytes) (h : ∀ c ∈ l, c ≠ c! '.') :
    l.takeWhile (· ≠ c! '.') = l ∧ l.dropWhile (· ≠ c! '.') = [] := by
  induction l with
  | nil => simp
  | cons a l ih =>
    have ha : a ≠ c! '.' := h a (by simp)
    have := ih (fun c hc => h c (by simp [hc]))
    simp only [ne_eq, ha, not_false_eq_true, decide_true,
      List.takeWhile_cons_of_pos, List.dropWhile_cons_of_pos, List.cons.injEq, true_and]
    exact this

theorem pieces_label (l : Bytes) (h : Label l) : pieces l = [l] := by
  have hd := label_noDot h
  cases l with
  | nil => exact absurd rfl h.nonempty
  | cons a l =>
    have ha : a ≠ c! '.' := hd a (by simp)
    have := tw_label_nil l (fun c hc => hd c (by simp [hc]))
    rw [pieces_cons _ _ ha, this.1, this.2, pieces_nil]

theorem pieces_label_dot (l t : Bytes) (h : Label l) :
    pieces (l ++ c! '.' :: t) = l :: pieces t := by
  have hd := label_noDot h
  cases l with
  | nil => exact absurd rfl h.nonempty
  | cons a l =>
    have ha : a ≠ c! '.' := hd a (by simp)
    have := tw_label l t (fun c hc => hd c (by simp [hc]))
    rw [List.cons_append, pieces_cons _ _ ha, this.1, this.2, pieces_dot]

theorem NoDD_noDot (l : Bytes) (h : ∀ c ∈ l, c ≠ c! '.') : NoDD l := by
  induction l with
  | nil => trivial
  | cons a l ih =>
    exact ⟨fun h' => h a (by simp) h'.1, ih (fun c hc => h c (by simp [hc]))⟩

theorem NoDD_label_dot (l t : Bytes) (h : ∀ c ∈ l, c ≠ c! '.')
    (ht : NoDD t) (hh : t.head? ≠ some (c! '.')) : NoDD (l ++ c! '.' :: t) := by
  induction l with
  | nil => exact ⟨fun h' => hh h'.2, ht⟩
  | cons a l ih =>
    exact ⟨fun h' => h a (by simp) h'.1, ih (fun c hc => h c (by simp [hc]))⟩

theorem head_label (l t : Bytes) (h : Label l) : (l ++ t).head? ≠ some (c! '.') := by
  have hd := label_noDot h
  cases l with
  | nil => exact absurd rfl h.nonempty
  | cons a l => simpa using hd a (by simp)

/-- A text form of valid labels is scanned to exactly these labels. -/
theorem join_ok (ls : List Bytes) (hne : ls ≠ []) (h : ∀ l ∈ ls, Label l) (tl : Bytes)
    (htl : tl = [] ∨ tl = [c! '.']) :
    pieces (joinDots ls ++ tl) = ls ∧ NoDD (joinDots ls ++ tl) ∧
      (joinDots ls ++ tl).head? ≠ some (c! '.') := by
  induction ls with
  | nil => exact absurd rfl hne
  | cons l ls ih =>
    have hl := h l (by simp)
    by_cases h0 : ls = []
    · subst h0
      rcases htl with rfl | rfl
      · rw [List.append_nil]
        refine ⟨pieces_label l hl, NoDD_noDot _ (label_noDot hl), ?_⟩
        have := head_label l [] hl
        rwa [List.append_nil] at this
      · refine ⟨?_, ?_, head_label l _ hl⟩
        · show pieces (l ++ _) = _
          rw [pieces_label_dot l [] hl, pieces_nil]
        · exact NoDD_label_dot l [] (label_noDot hl) trivial (by simp)
    · obtain ⟨h1, h2, h3⟩ := ih h0 (fun x hx => h x (by simp [hx]))
      rw [joinDots_cons _ _ h0, List.append_assoc, List.cons_append]
      exact ⟨by rw [pieces_label_dot _ _ hl, h1], NoDD_label_dot _ _ (label_noDot hl) h2 h3,
        head_label _ _ hl⟩

theorem nameOf_checks (s : Bytes) (ls : List Bytes) (h : NameOf s ls) (hl : ∀ l ∈ ls, Label l) :
    NoDD s ∧ ¬ (s.head? = some (c! '.') ∧ s ≠ [c! '.']) := by
  cases h with
  | empty => exact ⟨trivial, by simp⟩
  | root => exact ⟨⟨by simp, trivial⟩, by simp⟩
  | relative hne =>
    have := (join_ok _ hne hl [] (.inl rfl)).2
    rw [List.append_nil] at this
    exact ⟨this.1, fun h => this.2 h.1⟩
  | absolute hne =>
    have := (join_ok _ hne hl [c! '.'] (.inr rfl)).2
    exact ⟨this.1, fun h => this.2 h.1⟩

/-- The leading-dot test of parsename.c:59. -/
theorem lead_ok (s rest : Bytes) (hs : NoNul s) :
    (rd (cstr s rest) 0 >>= fun b0 => (if b0 = c! '.' then (do
      let b1 ← rd (cstr s rest) 1
      pure (decide (b1 ≠ 0))) else pure false : Out Bool)) =
      .ok (decide (s.head? = some (c! '.') ∧ s ≠ [c! '.'])) := by
  match s, hs with
  | [], _ => simp [cstr]
  | [b], _ => by_cases h : b = 46 <;> simp [cstr, h]
  | b :: b' :: s, hs =>
    have := hs.tail.head
    by_cases h : b = 46 <;> simp [cstr, h, this]

open Classical in
theorem parsename_ok (buf s rest : Bytes) (hs : NoNul s) (hbuf : buf.length = 256) :
    ∃ out, parsename buf (some (cstr s rest)) = .ok
      (if NameOf s (pieces s) ∧ (∀ l ∈ pieces s, Label l) ∧ (wire (pieces s)).length ≤ 255
        then (1, wire (pieces s) ++ List.replicate (256 - (wire (pieces s)).length) 0)
        else (0, out)) := by
  have hlead := lead_ok s rest hs
  have hrw : parsename buf (some (cstr s rest)) =
    ((rd (cstr s rest) 0 >>= fun b0 => (if b0 = c! '.' then (do
      let b1 ← rd (cstr s rest) 1
      pure (decide (b1 ≠ 0))) else pure false : Out Bool)) >>= fun lead =>
      if lead then return (0, buf)
      else do
        let dd ← hasDotDot (cstr s rest)
        if dd then return (0, buf)
        else
          let out ← (if 256 ≤ buf.length then .ok (List.replicate 256 0 ++ buf.drop 256) else .ub)
          match ← loop out 0 (cstr s rest) with
          | none => return (0, out)
          | some (out', pos) =>
            if pos ≥ 255 then return (0, out')
            else
              let out'' ← wr out' pos 0
              return (1, out'')) := by
    simp only [parsename, parsename_]
    cases rd (cstr s rest) 0 <;> rfl
  rw [hrw, hlead]
  clear hrw hlead
  simp only [Out.ok_bind, decide_eq_true_eq]
  by_cases h1 : s.head? = some (c! '.') ∧ s ≠ [c! '.']
  · rw [if_pos h1]
    refine ⟨buf, ?_⟩
    rw [if_neg]
    · rfl
    · rintro ⟨hn, hl, -⟩
      exact (nameOf_checks _ _ hn hl).2 h1
  · rw [if_neg h1, hasDotDot_ok s rest hs]
    simp only [Out.ok_bind, decide_eq_true_eq]
    by_cases h2 : NoDD s
    rotate_left
    · rw [if_pos h2]
      refine ⟨buf, ?_⟩
      rw [if_neg]
      · rfl
      · rintro ⟨hn, hl, -⟩
        exact h2 (nameOf_checks _ _ hn hl).1
    · rw [if_neg (not_not.mpr h2), if_pos (by omega)]
      have hdrop : buf.drop 256 = [] := List.drop_eq_nil_of_le (by omega)
      have hloop := loop_ok s rest (buf.drop 256) hs [] (by simp)
      simp only [List.nil_append, List.length_nil, Nat.sub_zero, Nat.zero_add] at hloop
      simp only [Out.ok_bind]
      rw [hloop, hdrop]
      simp only [Out.ok_bind, List.append_nil]
      have hname : NameOf s (pieces s) := by
        by_cases hh : s.head? = some (c! '.')
        · have : s = [c! '.'] := by
            apply Classical.byContradiction
            intro h; exact h1 ⟨hh, h⟩
          rw [this, pieces_dot, pieces_nil]
          exact .root
        · exact nameOf_pieces s h2 hh
      have hwl : (wire (pieces s)).length = encLen (pieces s) + 1 := by simp [wire, encLen]
      by_cases h3 : (∀ l ∈ pieces s, Label l) ∧ encLen (pieces s) ≤ 255
      · rw [if_pos h3]
        simp only
        by_cases h4 : encLen (pieces s) ≥ 255
        · rw [if_pos h4]
          have hneg : ¬ (NameOf s (pieces s) ∧ (∀ l ∈ pieces s, Label l) ∧
              (wire (pieces s)).length ≤ 255) := by rintro ⟨-, -, h⟩; omega
          exact ⟨_, (congrArg Out.ok (if_neg hneg)).symm⟩
        · rw [if_neg h4]
          refine ⟨[], ?_⟩
          rw [if_pos ⟨hname, h3.1, by omega⟩]
          have : encLen (pieces s) = ((pieces s).flatMap wireLabel).length := rfl
          rw [replicate_split 256 _ (by omega)]
          conv => lhs; rw [this, wr_append]
          simp only [Out.ok_bind, Out.pure_eq, Out.ok.injEq, Prod.mk.injEq, true_and]
          rw [hwl, this]
          simp [wire]
      · rw [if_neg h3]
        simp only
        have hneg : ¬ (NameOf s (pieces s) ∧ (∀ l ∈ pieces s, Label l) ∧
            (wire (pieces s)).length ≤ 255) := by
          rintro ⟨-, hl, hle⟩; exact h3 ⟨hl, by omega⟩
        exact ⟨_, (congrArg Out.ok (if_neg hneg)).symm⟩

/-- A valid name's labels are determined by its text. -/
theorem nameOf_unique (s : Bytes) (ls : List Bytes) (h : NameOf s ls) (hl : ∀ l ∈ ls, Label l) :
    ls = pieces s := by
  cases h with
  | empty => rw [pieces_nil]
  | root => rw [pieces_dot, pieces_nil]
  | relative hne =>
    have := (join_ok _ hne hl [] (.inl rfl)).1
    rw [List.append_nil] at this
    exact this.symm
  | absolute hne => exact (join_ok _ hne hl [c! '.'] (.inr rfl)).1.symm

theorem unwire_wire (ls : List Bytes) (hl : ∀ l ∈ ls, Label l) (pad : Bytes) :
    ∀ n, ls.length < n → unwire n (wire ls ++ pad) = some ls := by
  induction ls with
  | nil =>
    intro n hn
    cases n with
    | zero => omega
    | succ n => simp [wire, unwire]
  | cons l ls ih =>
    intro n hn
    cases n with
    | zero => omega
    | succ n =>
      have h := hl l (by simp)
      have h1 : l.length ≠ 0 := by simpa using h.nonempty
      have h2 := h.short
      have h3 : (UInt8.ofNat l.length).toNat = l.length := by
        rw [UInt8.toNat_ofNat']; omega
      have h4 : UInt8.ofNat l.length ≠ 0 := by
        intro h'; rw [h'] at h3; simp at h3; omega
      have e : wire (l :: ls) ++ pad = UInt8.ofNat l.length :: (l ++ (wire ls ++ pad)) := by
        simp [wire, wireLabel]
      rw [e, unwire, if_neg h4, h3, if_neg (by simp), List.take_left, List.drop_left,
        ih (fun x hx => hl x (by simp [hx])) n (by simp at hn; omega)]
      rfl

end Name
