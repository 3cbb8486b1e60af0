import Verif.Smtp.ReplyLemmas
/-
Every action of the front end is one the specification allows.
-/
namespace Smtp
open Str Str.Spec

/-! ### Comparisons -/

theorem sub_zero_iff (a b : Byte) : ((a.toNat : Int) - b.toNat = 0) ↔ a = b := by
  constructor
  · intro h; apply UInt8.toNat_inj.mp; omega
  · intro h; rw [h]; omega

/-- The first word compared with a verb. -/
theorem word_match (w : Bytes) : ∀ (x v : Bytes), NoNul w → ∃ d,
    diffbLoop (w ++ x) w.length (v ++ [0]) = .ok d ∧ (d = 0 ↔ lcs w <+: lcs v) := by
  induction w with
  | nil => intro x v _; exact ⟨0, by simp [diffbLoop], by simp [lcs]⟩
  | cons a w ih =>
    intro x v hw
    cases v with
    | nil =>
      have h0 : lc a ≠ lc 0 := by
        rw [(lc_zero 0).mpr rfl]; intro h; exact hw.head ((lc_zero a).mp h)
      refine ⟨((lc a).toNat : Int) - (lc 0).toNat, by simp [diffbLoop, fold_eq_lc, h0], ?_⟩
      rw [sub_zero_iff]; simp [h0, lcs]
    | cons b v =>
      by_cases hab : lc a = lc b
      · obtain ⟨d, h1, h2⟩ := ih x v hw.tail
        refine ⟨d, by simp [diffbLoop, fold_eq_lc, hab, h1], ?_⟩
        rw [h2]; simp [lcs, hab]
      · refine ⟨((lc a).toNat : Int) - (lc b).toNat, by simp [diffbLoop, fold_eq_lc, hab], ?_⟩
        rw [sub_zero_iff]; simp [hab, lcs]

/-- A fixed number of bytes compared with a keyword of that length. -/
theorem key_match (key : Bytes) : ∀ (mem y : Bytes), key.length ≤ mem.length → ∃ d,
    diffbLoop mem key.length (key ++ y) = .ok d ∧ (d = 0 ↔ lcs key <+: lcs mem) := by
  induction key with
  | nil => intro mem y _; exact ⟨0, by cases mem <;> simp [diffbLoop], by simp [lcs]⟩
  | cons b key ih =>
    intro mem y h
    cases mem with
    | nil => simp at h
    | cons a mem =>
      by_cases hab : lc a = lc b
      · obtain ⟨d, h1, h2⟩ := ih mem y (by simpa using h)
        refine ⟨d, by simp [diffbLoop, fold_eq_lc, hab, h1], ?_⟩
        rw [h2]; simp [lcs, hab]
      · refine ⟨((lc a).toNat : Int) - (lc b).toNat, by simp [diffbLoop, fold_eq_lc, hab], ?_⟩
        rw [sub_zero_iff]; simp only [hab, lcs, List.map_cons, List.cons_prefix_cons, false_iff, not_and]
        exact fun h => absurd h.symm hab

theorem prefix_nul (key s : Bytes) (hk : NoNul key) : key <+: s ++ [0] ↔ key <+: s := by
  constructor
  · rintro ⟨t, h⟩
    rcases List.eq_nil_or_concat t with rfl | ⟨t', b, rfl⟩
    · simp only [List.append_nil] at h
      exact absurd rfl (hk 0 (by rw [h]; simp))
    · rw [List.concat_eq_append, ← List.append_assoc] at h
      have := List.append_inj' h rfl
      exact ⟨t', this.1⟩
  · exact fun h => h.trans (List.prefix_append _ _)

theorem lcs_append (a b : Bytes) : lcs (a ++ b) = lcs a ++ lcs b := by simp [lcs]

/-- The comparison with a keyword, as `case_diffb` with a terminated buffer. -/
theorem key_diffb (key s : Bytes) (hk : NoNul key) (hlk : lcs key = key) (h : key.length ≤ s.length + 1) :
    ∃ d, case_diffb (s ++ [0]) (key.length : Int) (key ++ [0]) = .ok d ∧ (d = 0 ↔ key <+: lcs s) := by
  obtain ⟨d, h1, h2⟩ := key_match key (s ++ [0]) [0] (by simpa using h)
  refine ⟨d, by simpa [case_diffb] using h1, ?_⟩
  rw [h2, hlk, lcs_append, show lcs [0] = [0] by decide, prefix_nul _ _ hk]

/-! ### Commands lines -/

theorem forward_noNul (raw : Bytes) : NoNul (Spec.forward raw) := by
  intro b hb
  simp only [Spec.forward, List.mem_append, List.mem_map] at hb
  rcases hb with ⟨a, _, rfl⟩ | hb
  · split
    · decide
    · assumption
  · simp at hb; rcases hb with rfl | rfl <;> decide

theorem upToNul_id (s : Bytes) (h : NoNul s) : upToNul s = s := by
  unfold upToNul
  induction s with
  | nil => rfl
  | cons a s ih => rw [List.takeWhile_cons, if_pos (by simpa using h.head), ih h.tail]

theorem upToNul_forward (raw : Bytes) : upToNul (Spec.forward raw) = Spec.forward raw :=
  upToNul_id _ (forward_noNul raw)

theorem forward_length (raw : Bytes) (h : raw.length ≤ 4096) : (Spec.forward raw).length ≤ 4098 := by
  simp only [Spec.forward, List.length_append, List.length_map]
  have : (Spec.content raw).length ≤ raw.length := by
    unfold Spec.content; split <;> simp
  simp; omega

theorem takeWhile_append_drop {α : Type} (p : α → Bool) (l : List α) :
    l.takeWhile p ++ l.drop (l.takeWhile p).length = l := by
  induction l with
  | nil => rfl
  | cons a l ih =>
    simp only [List.takeWhile_cons]
    split
    · simp [ih]
    · simp

/-- The table lookup follows the specification, for every forwarded line. -/
theorem lookup_eq (raw : Bytes) :
    lookup (Spec.forward raw) (wordLen (Spec.forward raw)) table = .ok (Spec.verb raw) := by
  have hw : NoNul (Spec.word raw) := by
    intro b hb; exact forward_noNul raw b ((List.takeWhile_sublist _).mem hb)
  have hsplit : Spec.forward raw = Spec.word raw ++ (Spec.forward raw).drop (Spec.word raw).length :=
    (takeWhile_append_drop _ _).symm
  have hlen : wordLen (Spec.forward raw) = (Spec.word raw).length := rfl
  have key : ∀ v : Bytes, lcs v = v → ∃ d, case_diffb (Spec.forward raw ++ [0])
      (wordLen (Spec.forward raw) : Int) (v ++ [0]) = .ok d ∧ (d = 0 ↔ (lcs (Spec.word raw)).isPrefixOf v = true) := by
    intro v hv
    obtain ⟨d, h1, h2⟩ := word_match (Spec.word raw)
      ((Spec.forward raw).drop (Spec.word raw).length ++ [0]) v hw
    refine ⟨d, ?_, ?_⟩
    · rw [hlen, case_diffb]
      rw [← List.append_assoc, ← hsplit] at h1
      simpa using h1
    · rw [h2, hv, List.isPrefixOf_iff_prefix]
  obtain ⟨d1, e1, k1⟩ := key b!"quit" (by decide)
  obtain ⟨d2, e2, k2⟩ := key b!"data" (by decide)
  obtain ⟨d3, e3, k3⟩ := key b!"mail" (by decide)
  obtain ⟨d4, e4, k4⟩ := key b!"rcpt" (by decide)
  obtain ⟨d5, e5, k5⟩ := key b!"ehlo" (by decide)
  obtain ⟨d6, e6, k6⟩ := key b!"starttls" (by decide)
  simp only [List.cons_append, List.nil_append] at e1 e2 e3 e4 e5 e6
  simp only [lookup, table, e1, e2, e3, e4, e5, e6, Out.ok_bind, k1, k2, k3, k4, k5, k6, Spec.verb, Spec.verbs,
    List.find?_cons]
  generalize (lcs (Spec.word raw)).isPrefixOf b!"quit" = x1
  generalize (lcs (Spec.word raw)).isPrefixOf b!"data" = x2
  generalize (lcs (Spec.word raw)).isPrefixOf b!"mail" = x3
  generalize (lcs (Spec.word raw)).isPrefixOf b!"rcpt" = x4
  generalize (lcs (Spec.word raw)).isPrefixOf b!"ehlo" = x5
  generalize (lcs (Spec.word raw)).isPrefixOf b!"starttls" = x6
  cases x1 <;> cases x2 <;> cases x3 <;> cases x4 <;> cases x5 <;> cases x6 <;> rfl

/-- The argument of MAIL or RCPT. -/
theorem arg_eq (key raw : Bytes) (hk : NoNul key) (hlk : lcs key = key) (hcr : c! '\r' ∉ key) (hlf : c! '\n' ∉ key)  :
    (key.length ≤ (Spec.forward raw).length →
    ∃ d, case_diffb (Spec.forward raw ++ [0]) (key.length : Int) (key ++ [0]) = .ok d ∧
      (d = 0 ↔ (Spec.arg key raw).isSome) ∧
      (d = 0 → Spec.arg key raw = some (argument ((Spec.forward raw).drop key.length)))) ∧
    (¬ key.length ≤ (Spec.forward raw).length → Spec.arg key raw = none) := by
  obtain ⟨l, hl⟩ : ∃ l, Spec.forward raw = l ++ b!"\r\n" := ⟨_, rfl⟩
  have htk : (Spec.forward raw).take ((Spec.forward raw).length - 2) = l := by
    rw [hl]; simp
  have hpre : key <+: lcs (Spec.forward raw) ↔ key <+: lcs l := by
    rw [hl, lcs_append, show lcs b!"\r\n" = b!"\r\n" by decide]
    constructor
    · intro h
      rcases Nat.lt_or_ge (lcs l).length key.length with hlt | hge
      · exfalso
        have hpl : lcs l <+: key := List.prefix_of_prefix_length_le (List.prefix_append _ _) h (by omega)
        obtain ⟨u, hu⟩ := hpl
        cases u with
        | nil => rw [← hu] at hlt; simp at hlt
        | cons a u =>
          rw [← hu, List.prefix_append_right_inj] at h
          obtain ⟨z, hz⟩ := h
          simp only [List.cons_append, List.cons.injEq] at hz
          exact hcr (by rw [← hu, hz.1]; simp)
      · exact List.prefix_of_prefix_length_le h (List.prefix_append _ _) hge
    · exact fun h => h.trans (List.prefix_append _ _)
  refine ⟨fun hlen => ?_, fun hlen => ?_⟩
  · obtain ⟨d, h1, h2⟩ := key_diffb key (Spec.forward raw) hk hlk (by omega)
    refine ⟨d, h1, ?_, ?_⟩
    · rw [h2, hpre]
      simp only [Spec.arg, htk, List.isPrefixOf_iff_prefix]
      split <;> simp_all
    · intro h0
      have hp := hpre.mp (h2.mp h0)
      simp only [Spec.arg, htk, List.isPrefixOf_iff_prefix]
      rw [if_pos hp]
      have hle : key.length ≤ l.length := by have := hp.length_le; simpa [lcs] using this
      rw [hl, List.drop_append_of_le_length hle]
      have e1 : (List.drop key.length l ++ b!"\r\n").getLast? = some (c! '\n') := by simp
      have e2 : (List.drop key.length l ++ b!"\r\n").dropLast = List.drop key.length l ++ [c! '\r'] := by
        rw [show b!"\r\n" = [c! '\r'] ++ [c! '\n'] from rfl, ← List.append_assoc, List.dropLast_concat]
      have e3 : (List.drop key.length l ++ [c! '\r']).getLast? = some (c! '\r') := by simp
      have e4 : strip (c! '\n') (List.drop key.length l ++ b!"\r\n") = List.drop key.length l ++ [c! '\r'] := by
        rw [strip, if_pos e1, e2]
      have e5 : strip (c! '\r') (List.drop key.length l ++ [c! '\r']) = List.drop key.length l := by
        rw [strip, if_pos e3, List.dropLast_concat]
      rw [argument, e4, e5]
  · simp only [Spec.arg, htk, List.isPrefixOf_iff_prefix]
    rw [if_neg]
    intro hp
    have := hp.length_le
    rw [hl] at hlen
    simp [lcs] at this hlen
    omega

theorem arg_noNul (key raw a : Bytes) (h : Spec.arg key raw = some a) : NoNul a := by
  simp only [Spec.arg] at h
  split at h
  · simp only [Option.some.injEq] at h
    subst h
    intro b hb
    exact forward_noNul raw b (List.mem_of_mem_take (List.mem_of_mem_drop ((List.takeWhile_sublist _).mem hb)))
  · simp at h

end Smtp
