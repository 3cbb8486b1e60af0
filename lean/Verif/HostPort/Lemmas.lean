import Verif.BaseLemmas
import Verif.Num.Props
import Verif.HostPort.Model
import Verif.HostPort.Spec
/-
Helper lemmas about the host:port parser.
-/
namespace HostPort
open Spec Num.Spec

theorem parseport_none_iff (p rest : Bytes) (hp : NoNul p) :
    ∃ r, Num.parseport_ (some (cstr p rest)) = .ok r ∧ (r.isNone = true ↔ ¬ PortText p) := by
  have htot := Num.c02_parseport_total p rest hp
  have hacc := Num.c02_parseport_accepts p rest hp
  simp only [Num.parseport] at htot hacc
  rcases htot with h | ⟨hi, lo, h⟩
  · refine ⟨none, h, ?_⟩
    simp only [Option.isNone_none, true_iff]
    rintro ⟨h1, h2⟩
    have := (hacc (UInt8.ofNat (value p / 256)) (UInt8.ofNat (value p))).mpr ⟨h1, by
      unfold Num.portNum
      rw [UInt8.toNat_ofNat', UInt8.toNat_ofNat']
      omega⟩
    rw [h] at this
    cases this
  · refine ⟨_, h, ?_⟩
    simp only [Option.isNone_some, Bool.false_eq_true, false_iff, Classical.not_not]
    have := (hacc hi lo).mp h
    refine ⟨this.1, ?_⟩
    have h1 := hi.toNat_lt
    have h2 := lo.toNat_lt
    unfold Num.portNum at this
    omega

theorem portText_len {p : Bytes} (h : PortText p) : p.length ≤ 5 := by
  rw [← Num.decimal_value p h.1]
  exact Num.decimal_length_port _ (by have := h.2; omega)

theorem portText_ne {p : Bytes} (h : PortText p) : p ≠ [] := h.1.nonempty

theorem pad_cstr (s : Bytes) (n : Nat) (h : s.length < n) :
    s ++ List.replicate (n - s.length) 0 = cstr s (List.replicate (n - s.length - 1) 0) := by
  unfold cstr
  congr 1
  rw [← List.replicate_succ]; congr 1; omega

/-- Copying a slice into a zeroed buffer and terminating it. -/
theorem copySlice (n : Nat) (s tl : Bytes) (h : s.length < n) :
    (copyN (List.replicate n 0) 0 (s ++ tl) s.length >>= fun t => wr t s.length 0) =
      .ok (s ++ List.replicate (n - s.length) 0) := by
  have e : List.replicate n (0 : Byte) =
      List.replicate s.length 0 ++ List.replicate (n - s.length) 0 := by
    rw [List.replicate_append_replicate]; congr 1; omega
  have := copyN_ok [] (List.replicate s.length 0) (List.replicate (n - s.length) 0) s tl (by simp)
  simp only [List.nil_append, List.length_nil] at this
  rw [e, this]
  simp only [Out.ok_bind]
  have e2 : List.replicate (n - s.length) (0 : Byte) = 0 :: List.replicate (n - s.length - 1) 0 := by
    rw [← List.replicate_succ]; congr 1; omega
  rw [e2, wr_append]

/-- What the slices must satisfy to be accepted. -/
def Good (ip6 : Bytes → Bool) (lit : Bool) (h p : Bytes) : Prop :=
  h.length ≤ 255 ∧ (lit = true → ip6 h = true) ∧ (p = [] ∨ PortText p)

open Classical in
theorem fill_ok (ip6 : Bytes → Bool) (inp : Bytes) (sp : Split) (h p tl tl' : Bytes)
    (hh : inp.drop sp.host = h ++ tl) (hhl : sp.hostlen = h.length)
    (hp : inp.drop sp.port = p ++ tl') (hpl : sp.portlen = p.length)
    (nh : NoNul h) (np : NoNul p) :
    fill ip6 inp sp = .ok
      (if Good ip6 (sp.bracketed || decide (sp.coloncount > 1)) h p
       then some (h ++ List.replicate (256 - h.length) 0, p ++ List.replicate (6 - p.length) 0)
       else none) := by
  unfold fill
  rw [hhl, hpl, hh, hp]
  have hH : HOSTBYTES = 256 := rfl
  have hP : PORTBYTES = 6 := rfl
  by_cases h1 : h.length ≥ HOSTBYTES
  · rw [if_pos h1, if_neg]
    · rfl
    · rintro ⟨g, -⟩; omega
  by_cases h2 : p.length ≥ PORTBYTES
  · rw [if_neg h1, if_pos h2, if_neg]
    · rfl
    · rintro ⟨-, -, g | g⟩
      · subst g; simp [hP] at h2
      · have := portText_len g; omega
  rw [if_neg h1, if_neg h2, hH, hP]
  have c1 := copySlice 256 h tl (by omega)
  have c2 := copySlice 6 p tl' (by omega)
  have a1 : ∀ {β : Type} (k : Bytes → Out β),
      (copyN (List.replicate 256 0) 0 (h ++ tl) h.length >>= fun t => wr t h.length 0 >>= k) =
        k (h ++ List.replicate (256 - h.length) 0) := by
    intro β k
    cases hc : copyN (List.replicate 256 0) 0 (h ++ tl) h.length with
    | ub => rw [hc] at c1; simp at c1
    | ok t =>
      rw [hc] at c1
      simp only [Out.ok_bind] at c1 ⊢
      rw [c1]; rfl
  have a2 : ∀ {β : Type} (k : Bytes → Out β),
      (copyN (List.replicate 6 0) 0 (p ++ tl') p.length >>= fun t => wr t p.length 0 >>= k) =
        k (p ++ List.replicate (6 - p.length) 0) := by
    intro β k
    cases hc : copyN (List.replicate 6 0) 0 (p ++ tl') p.length with
    | ub => rw [hc] at c2; simp at c2
    | ok t =>
      rw [hc] at c2
      simp only [Out.ok_bind] at c2 ⊢
      rw [c2]; rfl
  rw [a1, a2]
  rw [pad_cstr h 256 (by omega), cstrOf_cstr _ _ nh]
  simp only [Out.ok_bind]
  have hlit : (sp.bracketed = true ∨ sp.coloncount > 1) ↔
      (sp.bracketed || decide (sp.coloncount > 1)) = true := by simp
  by_cases h3 : (sp.bracketed = true ∨ sp.coloncount > 1) ∧ ip6 h = false
  · rw [if_pos h3, if_neg]
    · rfl
    · rintro ⟨-, g, -⟩
      have := g (hlit.mp h3.1)
      rw [h3.2] at this; cases this
  · rw [if_neg h3]
    have hl : (sp.bracketed || decide (sp.coloncount > 1)) = true → ip6 h = true := by
      intro g
      cases hi : ip6 h with
      | true => rfl
      | false => exact absurd ⟨hlit.mpr g, hi⟩ h3
    by_cases h4 : p.length ≠ 0
    · rw [if_pos h4, pad_cstr p 6 (by omega)]
      have hpne : p ≠ [] := by simpa using h4
      obtain ⟨r, hr, hrn⟩ := parseport_none_iff p (List.replicate (6 - p.length - 1) 0) np
      rw [hr]
      simp only [Out.ok_bind, Out.pure_eq]
      by_cases h5 : PortText p
      · rw [if_neg (fun g => hrn.mp g h5), if_pos ⟨by omega, hl, .inr h5⟩]
      · rw [if_pos (hrn.mpr h5), if_neg]
        rintro ⟨-, -, g | g⟩
        · exact hpne g
        · exact h5 g
    · rw [if_neg h4]
      have hpe : p = [] := by simpa using h4
      simp only [Out.ok_bind, Out.pure_eq, Bool.false_eq_true, if_false]
      rw [if_pos ⟨by omega, hl, .inl hpe⟩]

/-! ### The splitter on each syntactic class -/

theorem scanBracket_close (pre post rest : Bytes) (hf : Free pre [c! '[', c! ']'])
    (hn : NoNul pre) (i : Nat) :
    scanBracket (cstr (pre ++ c! ']' :: post) rest) i = .ok (some (i + pre.length)) := by
  induction pre generalizing i with
  | nil => simp [cstr, scanBracket]
  | cons b pre ih =>
    have hb := hf b (by simp)
    simp only [List.mem_cons, List.not_mem_nil, or_false, not_or] at hb
    rw [List.cons_append, cstr_cons, scanBracket, if_neg hn.head, if_neg hb.1, if_neg hb.2,
      ih (fun x hx => hf x (by simp [hx])) hn.tail]
    simp only [List.length_cons]; congr 2; omega

theorem scanBracket_open (pre post rest : Bytes) (hf : Free pre [c! '[', c! ']'])
    (hn : NoNul pre) (i : Nat) :
    scanBracket (cstr (pre ++ c! '[' :: post) rest) i = .ok none := by
  induction pre generalizing i with
  | nil => simp [cstr, scanBracket]
  | cons b pre ih =>
    have hb := hf b (by simp)
    simp only [List.mem_cons, List.not_mem_nil, or_false, not_or] at hb
    rw [List.cons_append, cstr_cons, scanBracket, if_neg hn.head, if_neg hb.1, if_neg hb.2,
      ih (fun x hx => hf x (by simp [hx])) hn.tail]

theorem scanBracket_free (pre rest : Bytes) (hf : Free pre [c! '[', c! ']'])
    (hn : NoNul pre) (i : Nat) :
    scanBracket (cstr pre rest) i = .ok (some (i + pre.length)) := by
  induction pre generalizing i with
  | nil => simp [cstr, scanBracket]
  | cons b pre ih =>
    have hb := hf b (by simp)
    simp only [List.mem_cons, List.not_mem_nil, or_false, not_or] at hb
    rw [cstr_cons, scanBracket, if_neg hn.head, if_neg hb.1, if_neg hb.2,
      ih (fun x hx => hf x (by simp [hx])) hn.tail]
    simp only [List.length_cons]; congr 2; omega

theorem scanPort_free (p rest : Bytes) (hf : Free p [c! ']']) (hn : NoNul p) (i : Nat) :
    scanPort (cstr p rest) i = .ok (some (i + p.length)) := by
  induction p generalizing i with
  | nil => simp [cstr, scanPort]
  | cons b pre ih =>
    have hb := hf b (by simp)
    simp only [List.mem_cons, List.not_mem_nil, or_false] at hb
    rw [cstr_cons, scanPort, if_neg hn.head, if_neg hb,
      ih (fun x hx => hf x (by simp [hx])) hn.tail]
    simp only [List.length_cons]; congr 2; omega

theorem scanPort_bad (p rest : Bytes) (hf : ¬ Free p [c! ']']) (hn : NoNul p) (i : Nat) :
    scanPort (cstr p rest) i = .ok none := by
  induction p generalizing i with
  | nil => exact absurd (fun b hb => absurd hb (by simp)) hf
  | cons b pre ih =>
    rw [cstr_cons, scanPort, if_neg hn.head]
    by_cases hb : b = c! ']'
    · rw [if_pos hb]
    · rw [if_neg hb, ih _ hn.tail]
      intro h
      apply hf
      intro x hx
      rcases List.mem_cons.mp hx with rfl | hx
      · simpa using hb
      · exact h x hx

theorem scanColons_bad (s rest : Bytes) (hf : ¬ Free s [c! ']']) (hn : NoNul s) (i cc lc : Nat) :
    scanColons (cstr s rest) i cc lc = .ok none := by
  induction s generalizing i cc lc with
  | nil => exact absurd (fun b hb => absurd hb (by simp)) hf
  | cons b pre ih =>
    rw [cstr_cons, scanColons, if_neg hn.head]
    by_cases hb : b = c! ']'
    · rw [if_pos hb]
    · have hf' : ¬ Free pre [c! ']'] := by
        intro h
        apply hf
        intro x hx
        rcases List.mem_cons.mp hx with rfl | hx
        · simpa using hb
        · exact h x hx
      rw [if_neg hb]
      split
      · exact ih hf' hn.tail _ _ _
      · exact ih hf' hn.tail _ _ _

theorem scanColons_free (s rest : Bytes) (hf : Free s [c! ':', c! ']']) (hn : NoNul s)
    (i cc lc : Nat) :
    scanColons (cstr s rest) i cc lc = .ok (some (i + s.length, cc, lc)) := by
  induction s generalizing i cc lc with
  | nil => simp [cstr, scanColons]
  | cons b pre ih =>
    have hb := hf b (by simp)
    simp only [List.mem_cons, List.not_mem_nil, or_false, not_or] at hb
    rw [cstr_cons, scanColons, if_neg hn.head, if_neg hb.2, if_neg hb.1,
      ih (fun x hx => hf x (by simp [hx])) hn.tail]
    simp only [List.length_cons, Out.ok.injEq, Option.some.injEq, Prod.mk.injEq, and_true]
    omega

theorem scanColons_one (s t rest : Bytes) (hf : Free s [c! ':', c! ']'])
    (ht : Free t [c! ':', c! ']']) (hn : NoNul s) (hn' : NoNul t) (i cc lc : Nat) :
    scanColons (cstr (s ++ c! ':' :: t) rest) i cc lc =
      .ok (some (i + s.length + 1 + t.length, cc + 1, i + s.length)) := by
  induction s generalizing i cc lc with
  | nil =>
    rw [List.nil_append, cstr_cons, scanColons, if_neg (by decide), if_neg (by decide),
      if_pos rfl, scanColons_free _ _ ht hn']
    simp
  | cons b pre ih =>
    have hb := hf b (by simp)
    simp only [List.mem_cons, List.not_mem_nil, or_false, not_or] at hb
    rw [List.cons_append, cstr_cons, scanColons, if_neg hn.head, if_neg hb.2, if_neg hb.1,
      ih (fun x hx => hf x (by simp [hx])) hn.tail]
    simp only [List.length_cons, Out.ok.injEq, Option.some.injEq, Prod.mk.injEq, true_and]
    omega

theorem scanColons_count (s rest : Bytes) (hf : Free s [c! ']']) (hn : NoNul s) (i cc lc : Nat) :
    ∃ lc', scanColons (cstr s rest) i cc lc =
      .ok (some (i + s.length, cc + s.count (c! ':'), lc')) := by
  induction s generalizing i cc lc with
  | nil => exact ⟨lc, by simp [cstr, scanColons]⟩
  | cons b pre ih =>
    have hb := hf b (by simp)
    simp only [List.mem_cons, List.not_mem_nil, or_false] at hb
    rw [cstr_cons, scanColons, if_neg hn.head, if_neg hb]
    have hf' : Free pre [c! ']'] := fun x hx => hf x (by simp [hx])
    by_cases hc : b = c! ':'
    · obtain ⟨lc', h⟩ := ih hf' hn.tail (i + 1) (cc + 1) i
      refine ⟨lc', ?_⟩
      rw [if_pos hc, h, hc, List.count_cons_self]
      simp only [List.length_cons, Out.ok.injEq, Option.some.injEq, Prod.mk.injEq, and_true]
      omega
    · obtain ⟨lc', h⟩ := ih hf' hn.tail (i + 1) cc lc
      refine ⟨lc', ?_⟩
      rw [if_neg hc, h, List.count_cons_of_ne hc]
      simp only [List.length_cons, Out.ok.injEq, Option.some.injEq, Prod.mk.injEq, and_true]
      omega

/-- A split record describes the texts `h` and `p`. -/
def Describes (inp : Bytes) (sp : Split) (h p : Bytes) (lit : Bool) : Prop :=
  (∃ tl, inp.drop sp.host = h ++ tl) ∧ sp.hostlen = h.length ∧
  (∃ tl, inp.drop sp.port = p ++ tl) ∧ sp.portlen = p.length ∧
  (sp.bracketed || decide (sp.coloncount > 1)) = lit

theorem free_of_count {s : Bytes} (h : s.count (c! ':') = 0) (hf : Free s [c! ']']) :
    Free s [c! ':', c! ']'] := by
  intro b hb
  have h1 := hf b hb
  simp only [List.mem_cons, List.not_mem_nil, or_false, not_or] at h1 ⊢
  refine ⟨?_, h1⟩
  rintro rfl
  exact (List.count_eq_zero.mp h) hb

theorem head_eq_of_cons {s : Bytes} {b : Byte} (h : s.head? = some b) : ∃ t, s = b :: t := by
  cases s with
  | nil => simp at h
  | cons a t => simp at h; exact ⟨t, by rw [h]⟩

theorem drop_len (a b : Bytes) (n : Nat) (h : n = a.length) : (a ++ b).drop n = b := by
  subst h; simp

theorem rd_at (a : Bytes) (x : Byte) (b : Bytes) (n : Nat) (h : n = a.length) :
    rd (a ++ x :: b) n = .ok x := by
  subst h; rw [rd_append_right _ _ _ (Nat.le_refl _)]; simp

/-- The splitter returns normally on every string; it either rejects or
returns a split of one of the five kinds. -/
theorem split_sound (s rest : Bytes) (hs : NoNul s) :
    (split (cstr s rest) = .ok none) ∨
    ∃ sp h p lit, split (cstr s rest) = .ok (some sp) ∧ SplitOf s h p lit ∧
      Describes (cstr s rest) sp h p lit := by
  match s, hs with
  | [], _ => left; simp [split, cstr]
  | b :: t, hs =>
    by_cases hbr : b = c! '['
    · subst hbr
      have ht := hs.tail
      have hsp : split (cstr (c! '[' :: t) rest) = splitBracketed (cstr (c! '[' :: t) rest) := by
        simp [split, cstr]
      rw [hsp]
      unfold splitBracketed
      rw [cstr_cons, List.drop_succ_cons, List.drop_zero]
      rcases split_first (fun x => x == c! '[' || x == c! ']') t with hfree | ⟨pre, x, post, rfl, h1, h2⟩
      · -- no closing bracket
        left
        have hf : Free t [c! '[', c! ']'] := by
          intro y hy; have := hfree y hy; simpa using this
        rw [scanBracket_free _ _ hf ht]
        simp only [Out.ok_bind]
        have e : c! '[' :: cstr t rest = (c! '[' :: t) ++ 0 :: rest := rfl
        rw [e, rd_at _ _ _ _ (by simp; omega)]
        simp
      · have hf : Free pre [c! '[', c! ']'] := by
          intro y hy; have := h1 y hy; simpa using this
        have hpre : NoNul pre := ht.left
        simp only [Bool.or_eq_true, beq_iff_eq] at h2
        rcases h2 with rfl | rfl
        · left; rw [scanBracket_open _ _ _ hf hpre]; rfl
        · rw [scanBracket_close _ _ _ hf hpre]
          simp only [Out.ok_bind]
          have hpost : NoNul post := ht.right.tail
          have e0 : c! '[' :: cstr (pre ++ c! ']' :: post) rest =
              (c! '[' :: pre) ++ c! ']' :: cstr post rest := by simp [cstr]
          rw [e0, rd_at _ _ _ _ (by simp; omega)]
          simp only [Out.ok_bind]
          rw [if_neg (by decide)]
          by_cases hpe : pre = []
          · left; rw [if_pos (by simp [hpe])]; rfl
          · have hpl : pre.length ≠ 0 := by simpa using hpe
            rw [if_neg (by omega)]
            have e1 : (c! '[' :: pre) ++ c! ']' :: cstr post rest =
              (c! '[' :: pre ++ [c! ']']) ++ cstr post rest := by simp
            rw [e1]
            match post, hpost with
            | [], _ =>
              right
              rw [cstr_nil, rd_at _ _ _ _ (by simp; omega)]
              refine ⟨_, pre, [], true, rfl, .bracketed hpe hf, ?_⟩
              refine ⟨⟨[c! ']'] ++ (0 :: rest), by simp⟩, by simp, ⟨_, rfl⟩, rfl, rfl⟩
            | x :: q, hpost =>
              rw [cstr_cons, rd_at _ _ _ _ (by simp; omega)]
              simp only [Out.ok_bind]
              rw [if_neg hpost.head]
              by_cases hx : x = c! ':'
              · rw [if_neg (Classical.not_not.mpr hx)]
                subst hx
                have e2 : (c! '[' :: pre ++ [c! ']']) ++ c! ':' :: cstr q rest =
                  (c! '[' :: pre ++ [c! ']', c! ':']) ++ cstr q rest := by simp
                rw [e2]
                match q, hpost.tail with
                | [], _ =>
                  left
                  rw [cstr_nil, rd_at _ _ _ _ (by simp; omega)]
                  rfl
                | y :: q, hq =>
                  rw [cstr_cons, rd_at _ _ _ _ (by simp; omega)]
                  simp only [Out.ok_bind]
                  rw [if_neg hq.head, drop_len _ _ _ (by simp; omega), ← cstr_cons]
                  by_cases hqf : Free (y :: q) [c! ']']
                  · rw [scanPort_free _ _ hqf hq]
                    right
                    refine ⟨_, pre, y :: q, true, rfl, ?_, ?_⟩
                    · have := SplitOf.bracketedPort hpe hf (by simp : y :: q ≠ []) hqf
                      simpa using this
                    · refine ⟨⟨[c! ']', c! ':'] ++ cstr (y :: q) rest, by simp⟩, by simp,
                        ⟨0 :: rest, ?_⟩, by simp; omega, rfl⟩
                      rw [drop_len _ _ _ (by simp; omega)]; rfl
                  · left; rw [scanPort_bad _ _ hqf hq]; rfl
              · left; rw [if_pos hx]; rfl
    · have hsp : split (cstr (b :: t) rest) = splitPlain (cstr (b :: t) rest) := by
        simp [split, cstr, hs.head, hbr]
      rw [hsp]
      unfold splitPlain
      have hhd : (b :: t).head? ≠ some (c! '[') := by simpa using hbr
      by_cases hf : Free (b :: t) [c! ']']
      · obtain ⟨lc', hsc⟩ := scanColons_count (b :: t) rest hf hs 0 0 0
        by_cases hc0 : (b :: t).count (c! ':') = 0
        · right
          rw [hsc, hc0]
          refine ⟨_, b :: t, [], false, rfl, .host (by simp) (free_of_count hc0 hf) hhd, ?_⟩
          exact ⟨⟨0 :: rest, rfl⟩, by simp, ⟨_, rfl⟩, rfl, rfl⟩
        · by_cases hc1 : (b :: t).count (c! ':') = 1
          · rcases split_first (fun x => x == c! ':') (b :: t) with hfr | ⟨h, x, p, he, h1, h2⟩
            · exfalso
              apply hc0
              rw [List.count_eq_zero]
              intro hm
              have := hfr _ hm
              simp at this
            · simp only [beq_iff_eq] at h2
              subst h2
              have hcp : h.count (c! ':') = 0 ∧ p.count (c! ':') = 0 := by
                rw [he, List.count_append, List.count_cons_self] at hc1
                omega
              have hfh : Free h [c! ':', c! ']'] := free_of_count hcp.1
                (fun y hy => hf y (by rw [he]; simp [hy]))
              have hfp : Free p [c! ':', c! ']'] := free_of_count hcp.2
                (fun y hy => hf y (by rw [he]; simp [hy]))
              rw [he] at hs hhd ⊢
              rw [scanColons_one h p rest hfh hfp hs.left hs.right.tail 0 0 0]
              simp only [Out.ok_bind, Nat.zero_add]
              rw [if_neg (by omega), if_pos trivial]
              by_cases hh0 : h = []
              · left; rw [if_pos (by simp [hh0])]; rfl
              · have hhl : h.length ≠ 0 := by simpa using hh0
                rw [if_neg hhl]
                have e : cstr (h ++ c! ':' :: p) rest = (h ++ [c! ':']) ++ cstr p rest := by
                  simp [cstr]
                rw [e]
                have hhd' : h.head? ≠ some (c! '[') := by
                  cases h with
                  | nil => exact absurd rfl hh0
                  | cons a h => simpa using hhd
                match p, hs.right.tail with
                | [], _ =>
                  left
                  rw [cstr_nil, rd_at _ _ _ _ (by simp)]; rfl
                | y :: p, hp =>
                  right
                  rw [cstr_cons, rd_at _ _ _ _ (by simp)]
                  simp only [Out.ok_bind]
                  rw [if_neg hp.head]
                  refine ⟨_, h, y :: p, false, rfl, .hostPort hh0 hfh hhd' (by simp) hfp, ?_⟩
                  refine ⟨⟨c! ':' :: cstr (y :: p) rest, by simp [cstr]⟩, rfl, ⟨0 :: rest, ?_⟩,
                    by simp; omega, rfl⟩
                  rw [drop_len _ _ _ (by simp)]; rfl
          · right
            rw [hsc]
            simp only [Out.ok_bind, Nat.zero_add]
            rw [if_neg hc0, if_neg hc1]
            refine ⟨_, b :: t, [], true, rfl, .ip6 (by omega) hf hhd, ?_⟩
            refine ⟨⟨0 :: rest, rfl⟩, rfl, ⟨_, rfl⟩, rfl, ?_⟩
            simp; omega
      · left
        rw [scanColons_bad _ _ hf hs]; rfl

theorem free_weaken {s : Bytes} {cs ds : List Byte} (h : Free s cs) (hsub : ∀ x ∈ ds, x ∈ cs) :
    Free s ds := fun b hb hd => h b hb (hsub b hd)

theorem free_append {s t : Bytes} {cs : List Byte} (h : Free s cs) (h' : Free t cs) :
    Free (s ++ t) cs := by
  intro b hb
  rcases List.mem_append.mp hb with hb | hb
  · exact h b hb
  · exact h' b hb

theorem count_of_free {s : Bytes} (h : Free s [c! ':', c! ']']) : s.count (c! ':') = 0 :=
  List.count_eq_zero.mpr (fun hm => h _ hm (by simp))

/-- Every split of one of the five kinds is found. -/
theorem split_complete (s rest h p : Bytes) (lit : Bool) (hs : NoNul s) (hsp : SplitOf s h p lit) :
    ∃ sp, split (cstr s rest) = .ok (some sp) ∧ Describes (cstr s rest) sp h p lit := by
  have plain : ∀ (t : Bytes), NoNul t → t ≠ [] → t.head? ≠ some (c! '[') →
      split (cstr t rest) = splitPlain (cstr t rest) := by
    intro t nt hne hhd
    cases t with
    | nil => exact absurd rfl hne
    | cons a t =>
      have ha : a ≠ c! '[' := by simpa using hhd
      simp [split, cstr, nt.head, ha]
  cases hsp with
  | host h0 hf hhd =>
    rw [plain _ hs h0 hhd]
    unfold splitPlain
    rw [scanColons_free _ _ hf hs]
    refine ⟨_, rfl, ⟨0 :: rest, rfl⟩, by simp, ⟨_, rfl⟩, rfl, rfl⟩
  | hostPort h0 hf hhd hp0 hpf =>
    rw [plain _ hs (by simp) (by
      cases h with
      | nil => exact absurd rfl h0
      | cons a h => simpa using hhd)]
    unfold splitPlain
    rw [scanColons_one _ _ _ hf hpf hs.left hs.right.tail]
    simp only [Out.ok_bind, Nat.zero_add]
    have hhl : h.length ≠ 0 := by simpa using h0
    rw [if_neg (by omega), if_pos trivial, if_neg hhl]
    have e : cstr (h ++ c! ':' :: p) rest = (h ++ [c! ':']) ++ cstr p rest := by simp [cstr]
    rw [e]
    cases p with
    | nil => exact absurd rfl hp0
    | cons y p =>
      rw [cstr_cons, rd_at _ _ _ _ (by simp)]
      simp only [Out.ok_bind]
      rw [if_neg hs.right.tail.head]
      refine ⟨_, rfl, ⟨c! ':' :: cstr (y :: p) rest, by simp [cstr]⟩, rfl, ⟨0 :: rest, ?_⟩,
        by simp; omega, rfl⟩
      rw [drop_len _ _ _ (by simp)]; rfl
  | ip6 hc hf hhd =>
    have h0 : s ≠ [] := by rintro rfl; simp at hc
    rw [plain _ hs h0 hhd]
    unfold splitPlain
    obtain ⟨lc', hsc⟩ := scanColons_count s rest hf hs 0 0 0
    rw [hsc]
    simp only [Out.ok_bind, Nat.zero_add]
    rw [if_neg (by omega), if_neg (by omega)]
    refine ⟨_, rfl, ⟨0 :: rest, rfl⟩, rfl, ⟨_, rfl⟩, rfl, ?_⟩
    simp; omega
  | bracketed h0 hf =>
    have hhl : h.length ≠ 0 := by simpa using h0
    have e : cstr (c! '[' :: h ++ [c! ']']) rest =
        c! '[' :: cstr (h ++ c! ']' :: []) rest := by simp [cstr]
    have hn : NoNul h := by have := hs.tail; exact NoNul.left this
    have hsp : split (cstr (c! '[' :: h ++ [c! ']']) rest) =
        splitBracketed (cstr (c! '[' :: h ++ [c! ']']) rest) := by simp [split, cstr]
    rw [hsp]
    unfold splitBracketed
    rw [e, List.drop_succ_cons, List.drop_zero, scanBracket_close _ _ _ hf hn]
    simp only [Out.ok_bind]
    have e0 : c! '[' :: cstr (h ++ c! ']' :: []) rest =
        (c! '[' :: h) ++ c! ']' :: cstr [] rest := by simp [cstr]
    rw [e0, rd_at _ _ _ _ (by simp; omega)]
    simp only [Out.ok_bind]
    rw [if_neg (by decide), if_neg (by omega)]
    have e1 : (c! '[' :: h) ++ c! ']' :: cstr [] rest =
        (c! '[' :: h ++ [c! ']']) ++ cstr [] rest := by simp
    rw [e1, cstr_nil, rd_at _ _ _ _ (by simp; omega)]
    exact ⟨_, rfl, ⟨[c! ']'] ++ (0 :: rest), by simp⟩, by simp, ⟨_, rfl⟩, rfl, rfl⟩
  | bracketedPort h0 hf hp0 hpf =>
    have hhl : h.length ≠ 0 := by simpa using h0
    have e : cstr (c! '[' :: h ++ c! ']' :: c! ':' :: p) rest =
        c! '[' :: cstr (h ++ c! ']' :: (c! ':' :: p)) rest := by simp [cstr]
    have hn : NoNul h := by have := hs.tail; exact NoNul.left this
    have hnp : NoNul p := by
      have : NoNul (h ++ c! ']' :: c! ':' :: p) := hs.tail
      exact this.right.tail.tail
    have hsp : split (cstr (c! '[' :: h ++ c! ']' :: c! ':' :: p) rest) =
        splitBracketed (cstr (c! '[' :: h ++ c! ']' :: c! ':' :: p) rest) := by simp [split, cstr]
    rw [hsp]
    unfold splitBracketed
    rw [e, List.drop_succ_cons, List.drop_zero, scanBracket_close _ _ _ hf hn]
    simp only [Out.ok_bind]
    have e0 : c! '[' :: cstr (h ++ c! ']' :: (c! ':' :: p)) rest =
        (c! '[' :: h) ++ c! ']' :: c! ':' :: cstr p rest := by simp [cstr]
    rw [e0, rd_at _ _ _ _ (by simp; omega)]
    simp only [Out.ok_bind]
    rw [if_neg (by decide), if_neg (by omega)]
    have e1 : (c! '[' :: h) ++ c! ']' :: c! ':' :: cstr p rest =
        (c! '[' :: h ++ [c! ']']) ++ c! ':' :: cstr p rest := by simp
    rw [e1, rd_at _ _ _ _ (by simp; omega)]
    simp only [Out.ok_bind]
    rw [if_neg (by decide), if_neg (by simp)]
    have e2 : (c! '[' :: h ++ [c! ']']) ++ c! ':' :: cstr p rest =
      (c! '[' :: h ++ [c! ']', c! ':']) ++ cstr p rest := by simp
    rw [e2]
    cases p with
    | nil => exact absurd rfl hp0
    | cons y q =>
      rw [cstr_cons, rd_at _ _ _ _ (by simp; omega)]
      simp only [Out.ok_bind]
      rw [if_neg hnp.head, drop_len _ _ _ (by simp; omega), ← cstr_cons, scanPort_free _ _ hpf hnp]
      refine ⟨_, rfl, ⟨[c! ']', c! ':'] ++ cstr (y :: q) rest, by simp⟩, by simp,
        ⟨0 :: rest, ?_⟩, by simp; omega, rfl⟩
      rw [drop_len _ _ _ (by simp; omega)]; rfl

theorem describes_unique {inp h p h' p' : Bytes} {sp : Split} {lit lit' : Bool}
    (d : Describes inp sp h p lit) (d' : Describes inp sp h' p' lit') :
    h = h' ∧ p = p' ∧ lit = lit' := by
  obtain ⟨⟨t1, a1⟩, a2, ⟨t2, a3⟩, a4, a5⟩ := d
  obtain ⟨⟨t1', b1⟩, b2, ⟨t2', b3⟩, b4, b5⟩ := d'
  refine ⟨?_, ?_, a5.symm.trans b5⟩
  · exact (List.append_inj (a1.symm.trans b1) (a2.symm.trans b2)).1
  · exact (List.append_inj (a3.symm.trans b3) (a4.symm.trans b4)).1

theorem splitOf_unique {s h p h' p' : Bytes} {lit lit' : Bool} (hs : NoNul s)
    (a : SplitOf s h p lit) (b : SplitOf s h' p' lit') : h = h' ∧ p = p' ∧ lit = lit' := by
  obtain ⟨sp, e1, d1⟩ := split_complete s [] h p lit hs a
  obtain ⟨sp', e2, d2⟩ := split_complete s [] h' p' lit' hs b
  rw [e1] at e2
  simp only [Out.ok.injEq, Option.some.injEq] at e2
  subst e2
  exact describes_unique d1 d2

theorem portText_free {p : Bytes} (h : PortText p) : Free p [c! ':', c! ']'] := by
  intro b hb hm
  have := h.1.digits b hb
  unfold IsDigit at this
  simp only [List.mem_cons, List.not_mem_nil, or_false] at hm
  rcases hm with rfl | rfl <;> revert this <;> decide

theorem splitOf_noNul {s h p : Bytes} {lit : Bool} (hs : NoNul s) (a : SplitOf s h p lit) :
    NoNul h ∧ NoNul p := by
  cases a with
  | host => exact ⟨hs, .nil⟩
  | hostPort => exact ⟨hs.left, hs.right.tail⟩
  | ip6 => exact ⟨hs, .nil⟩
  | bracketed => exact ⟨NoNul.left hs.tail, .nil⟩
  | bracketedPort =>
    have : NoNul (h ++ c! ']' :: c! ':' :: p) := hs.tail
    exact ⟨this.left, this.right.tail.tail⟩

theorem splitOf_host_ne {s h p : Bytes} {lit : Bool} (a : SplitOf s h p lit) : h ≠ [] := by
  cases a with
  | host h | hostPort h | bracketed h | bracketedPort h => assumption
  | ip6 hc => rintro rfl; simp at hc

/-- The specification is the split plus validation. -/
theorem parts_iff (ip6 : Bytes → Bool) (s h p : Bytes) :
    Parts ip6 s h p ↔ ∃ lit, SplitOf s h p lit ∧ (lit = true → ip6 h = true) ∧
      (p = [] ∨ PortText p) := by
  constructor
  · intro hp
    cases hp with
    | host h0 hf hh => exact ⟨false, .host h0 hf hh, by simp, .inl rfl⟩
    | hostPort h0 hf hh hpt =>
      exact ⟨false, .hostPort h0 hf hh (portText_ne hpt) (portText_free hpt), by simp, .inr hpt⟩
    | ip6 hc hf hh hi => exact ⟨true, .ip6 hc hf hh, fun _ => hi, .inl rfl⟩
    | bracketed h0 hf hi => exact ⟨true, .bracketed h0 hf, fun _ => hi, .inl rfl⟩
    | bracketedPort h0 hf hi hpt =>
      exact ⟨true, .bracketedPort h0 hf (portText_ne hpt)
        (free_weaken (portText_free hpt) (by simp)), fun _ => hi, .inr hpt⟩
  · rintro ⟨lit, hsp, hi, hp⟩
    cases hsp with
    | host h0 hf hh => exact .host h0 hf hh
    | hostPort h0 hf hh hp0 hpf => exact .hostPort h0 hf hh (hp.resolve_left hp0)
    | ip6 hc hf hh => exact .ip6 hc hf hh (hi rfl)
    | bracketed h0 hf => exact .bracketed h0 hf (hi rfl)
    | bracketedPort h0 hf hp0 hpf => exact .bracketedPort h0 hf (hi rfl) (hp.resolve_left hp0)

theorem copyN_all (dst src : Bytes) (n : Nat) (h1 : dst.length = n) (h2 : src.length = n) :
    copyN dst 0 src n = .ok src := by
  have := copyN_ok [] dst [] src [] (by omega)
  simpa [h2] using this

theorem errExit_some (oh op : Bytes) (h1 : oh.length = 256) (h2 : op.length = 6) :
    errExit oh (some op) = .ok (0, oh.set 0 0, some (op.set 0 0)) := by
  unfold errExit
  rw [wr_lt oh 0 0 (by omega)]
  simp only [Out.ok_bind]
  rw [wr_lt op 0 0 (by omega)]; rfl

theorem errExit_none (oh : Bytes) (h1 : oh.length = 256) :
    errExit oh none = .ok (0, oh.set 0 0, none) := by
  unfold errExit
  rw [wr_lt _ _ _ (by omega)]; rfl

end HostPort
