import Verif.Stralloc.Lemmas
import Verif.Num.Props
/-
C25, C26: growable strings.
-/
namespace Stralloc
open Num.Spec

theorem set_holds {m : Nat → SA} {l : Nat → Bytes} (h : ∀ k, Holds (m k) (l k)) (i : Nat) {sa : SA} {x : Bytes}
    (hx : Holds sa x) : ∀ k, Holds (set m i sa k) (set l i x k) := by
  intro k
  unfold set
  split
  · exact hx
  · exact h k

theorem set_self (l : Nat → Bytes) (i : Nat) : set l i (l i) = l := by
  funext k; unfold set; split
  · rename_i h; rw [h]
  · rfl

theorem take2_head {ans : List Bool} (h : ans.head? ≠ some true) : ans.take 2 ≠ [true, true] := by
  intro e; apply h
  cases ans with
  | nil => simp at e
  | cons a as => simp at e; simp [e]

theorem negLen (r : SA) (x : Option Bytes) (n : Int) (ans : List Bool) (h : x = none ∨ n < 0) :
    catb r x n ans = .ok (0, r, ans) := by
  cases x with
  | none => rfl
  | some x =>
    rcases h with h | h
    · cases h
    · simp only [catb]; rw [if_pos h]

/-- The core step: one call acts on byte lists as specified, with no undefined behaviour; it
reports failure only when an allocation is refused or an argument is unusable. -/
theorem c25_call (m : Nat → SA) (l : Nat → Bytes) (h : ∀ k, Holds (m k) (l k)) (op : Op) (hl : Legal l op)
    (ans : List Bool) :
    ∃ ok m' ans' l', exec m ans op = .ok (ok, m', ans') ∧ (∀ k, Holds (m' k) (l' k)) ∧
      SpecStep l op ok l' ∧ (ok = 0 → ans.take 2 ≠ [true, true] ∨ ¬ GoodArgs l op) := by
  -- an appending call on string `i` holding `x`
  have app : ∀ (i : Nat) (x y : Bytes) (r : SA) (res : Res), Holds r x → Appends r x y ans res →
      ∃ ok r' ans', res = .ok (ok, r', ans') ∧
        ((ok = 0 ∧ Holds r' x ∧ ans.take 2 ≠ [true, true]) ∨ (ok = 1 ∧ Holds r' (x ++ y))) := by
    intro i x y r res hr ⟨ok, r', ans', e1, _, e3⟩
    refine ⟨ok, r', ans', e1, ?_⟩
    rcases e3 with ⟨k1, k2, k3⟩ | k
    · exact Or.inl ⟨k1, by rw [k2]; exact hr, take2_head k3⟩
    · exact Or.inr k
  cases op with
  | catb i x n =>
    simp only [exec]
    simp only [Legal] at hl
    by_cases hbad : x = none ∨ n < 0
    · rw [negLen _ _ _ _ hbad]
      refine ⟨0, _, ans, l, rfl, ?_, Or.inr ⟨rfl, rfl⟩, ?_⟩
      · have := set_holds h i (h i); rwa [set_self] at this
      · intro _; right; simp only [GoodArgs]; rintro ⟨h1, h2⟩; rcases hbad with hb | hb
        · exact h1 hb
        · omega
    · cases x with
      | none => exact absurd (Or.inl rfl) hbad
      | some x =>
        have hn : 0 ≤ n := by
          rcases Int.lt_or_le n 0 with hn | hn
          · exact absurd (Or.inr hn) hbad
          · exact hn
        simp only [Option.getD] at hl
        obtain ⟨ok, r', ans', e1, e2⟩ := app i _ _ _ _ (h i) (catb_ok (m i) (l i) (h i) x n hn hl.1 (by omega) ans)
        rw [e1]
        rcases e2 with ⟨rfl, e2, e3⟩ | ⟨rfl, e2⟩
        · exact ⟨0, _, _, l, rfl, by have := set_holds h i e2; rwa [set_self] at this, Or.inr ⟨rfl, rfl⟩, fun _ => Or.inl e3⟩
        · exact ⟨1, _, _, _, rfl, set_holds h i e2, Or.inl ⟨rfl, rfl⟩, by intro h; cases h⟩
  | cats i x =>
    simp only [exec]
    simp only [Legal] at hl
    cases x with
    | none =>
      refine ⟨0, _, ans, l, rfl, ?_, Or.inr ⟨rfl, rfl⟩, ?_⟩
      · have := set_holds h i (h i); rwa [set_self] at this
      · intro _; right; simp [GoodArgs]
    | some x =>
      simp only [Option.getD] at hl
      obtain ⟨ok, r', ans', e1, e2⟩ := app i _ _ _ _ (h i) (cats_ok (m i) (l i) (h i) x (hl.1 x rfl) (by omega) ans)
      rw [e1]
      rcases e2 with ⟨rfl, e2, e3⟩ | ⟨rfl, e2⟩
      · exact ⟨0, _, _, l, rfl, by have := set_holds h i e2; rwa [set_self] at this, Or.inr ⟨rfl, rfl⟩, fun _ => Or.inl e3⟩
      · exact ⟨1, _, _, _, rfl, set_holds h i e2, Or.inl ⟨rfl, rfl⟩, by intro h; cases h⟩
  | cat i j =>
    simp only [exec]
    simp only [Legal] at hl
    rw [if_neg hl.1]
    rcases h j with ⟨hz, hj⟩ | ⟨b, hs, hbl, hle, hlt, hh, htake⟩
    · rw [cat, negLen _ _ _ _ (Or.inl (by rw [hz]; rfl))]
      refine ⟨0, _, ans, l, rfl, ?_, Or.inr ⟨rfl, rfl⟩, ?_⟩
      · have := set_holds h i (h i); rwa [set_self] at this
      · intro _; right; simp only [GoodArgs]; intro h; exact h hj
    · have := catb_ok (m i) (l i) (h i) b (m j).len (by omega) (by omega) (by omega) ans
      rw [Int.toNat_natCast, htake] at this
      obtain ⟨ok, r', ans', e1, e2⟩ := app i _ _ _ _ (h i) this
      rw [cat, hs, e1]
      rcases e2 with ⟨rfl, e2, e3⟩ | ⟨rfl, e2⟩
      · exact ⟨0, _, _, l, rfl, by have := set_holds h i e2; rwa [set_self] at this, Or.inr ⟨rfl, rfl⟩, fun _ => Or.inl e3⟩
      · exact ⟨1, _, _, _, rfl, set_holds h i e2, Or.inl ⟨rfl, rfl⟩, by intro h; cases h⟩
  | copyb i x n =>
    simp only [exec]
    simp only [Legal] at hl
    have h0 := holds_empty _ _ (h i)
    by_cases hbad : x = none ∨ n < 0
    · rw [copyb, negLen _ _ _ _ hbad]
      refine ⟨0, _, ans, _, rfl, set_holds h i h0, Or.inr ⟨rfl, rfl⟩, ?_⟩
      intro _; right; simp only [GoodArgs]; rintro ⟨h1, h2⟩; rcases hbad with hb | hb
      · exact h1 hb
      · omega
    · cases x with
      | none => exact absurd (Or.inl rfl) hbad
      | some x =>
        have hn : 0 ≤ n := by
          rcases Int.lt_or_le n 0 with hn | hn
          · exact absurd (Or.inr hn) hbad
          · exact hn
        simp only [Option.getD] at hl
        obtain ⟨ok, r', ans', e1, e2⟩ := app i _ _ _ _ h0 (catb_ok _ [] h0 x n hn hl.1 (by simp only [List.length_nil]; omega) ans)
        rw [copyb, e1]
        rcases e2 with ⟨rfl, e2, e3⟩ | ⟨rfl, e2⟩
        · exact ⟨0, _, _, _, rfl, set_holds h i e2, Or.inr ⟨rfl, rfl⟩, fun _ => Or.inl e3⟩
        · exact ⟨1, _, _, _, rfl, set_holds h i e2, Or.inl ⟨rfl, rfl⟩, by intro h; cases h⟩
  | copys i x =>
    simp only [exec]
    simp only [Legal] at hl
    have h0 := holds_empty _ _ (h i)
    cases x with
    | none =>
      exact ⟨0, _, ans, _, rfl, set_holds h i h0, Or.inr ⟨rfl, rfl⟩, by intro _; right; simp [GoodArgs]⟩
    | some x =>
      simp only [Option.getD] at hl
      obtain ⟨ok, r', ans', e1, e2⟩ := app i _ _ _ _ h0 (cats_ok _ [] h0 x (hl.1 x rfl) (by simp only [List.length_nil]; omega) ans)
      rw [copys, e1]
      rcases e2 with ⟨rfl, e2, e3⟩ | ⟨rfl, e2⟩
      · exact ⟨0, _, _, _, rfl, set_holds h i e2, Or.inr ⟨rfl, rfl⟩, fun _ => Or.inl e3⟩
      · exact ⟨1, _, _, _, rfl, set_holds h i e2, Or.inl ⟨rfl, rfl⟩, by intro h; cases h⟩
  | copy i j =>
    simp only [exec]
    simp only [Legal] at hl
    have h0 := holds_empty _ _ (h i)
    rw [if_neg hl.1]
    rcases h j with ⟨hz, hj⟩ | ⟨b, hs, hbl, hle, hlt, hh, htake⟩
    · rw [copy, cat, negLen _ _ _ _ (Or.inl (by rw [hz]; rfl))]
      refine ⟨0, _, ans, _, rfl, set_holds h i h0, Or.inr ⟨rfl, rfl⟩, ?_⟩
      intro _; right; simp only [GoodArgs]; intro h; exact h hj
    · have := catb_ok _ [] h0 b (m j).len (by omega) (by omega) (by simp only [List.length_nil]; omega) ans
      rw [Int.toNat_natCast, htake] at this
      obtain ⟨ok, r', ans', e1, e2⟩ := app i _ _ _ _ h0 this
      rw [copy, cat, hs, e1]
      rcases e2 with ⟨rfl, e2, e3⟩ | ⟨rfl, e2⟩
      · exact ⟨0, _, _, _, rfl, set_holds h i e2, Or.inr ⟨rfl, rfl⟩, fun _ => Or.inl e3⟩
      · exact ⟨1, _, _, _, rfl, set_holds h i e2, Or.inl ⟨rfl, rfl⟩, by intro h; cases h⟩
  | append i b =>
    simp only [exec]
    simp only [Legal] at hl
    obtain ⟨ok, r', ans', e1, e2⟩ := app i _ _ _ _ (h i) (catb_ok (m i) (l i) (h i) [b] 1 (by omega) (by simp) (by omega) ans)
    rw [append, e1]
    rcases e2 with ⟨rfl, e2, e3⟩ | ⟨rfl, e2⟩
    · exact ⟨0, _, _, l, rfl, by have := set_holds h i e2; rwa [set_self] at this, Or.inr ⟨rfl, rfl⟩, fun _ => Or.inl e3⟩
    · exact ⟨1, _, _, _, rfl, set_holds h i e2, Or.inl ⟨rfl, rfl⟩, by intro h; cases h⟩
  | zero i =>
    simp only [exec]
    simp only [Legal] at hl
    obtain ⟨ok, r', ans', e1, e2⟩ := app i _ _ _ _ (h i) (catb_ok (m i) (l i) (h i) [0] 1 (by omega) (by simp) (by omega) ans)
    rw [zero, append, e1]
    rcases e2 with ⟨rfl, e2, e3⟩ | ⟨rfl, e2⟩
    · exact ⟨0, _, _, l, rfl, by have := set_holds h i e2; rwa [set_self] at this, Or.inr ⟨rfl, rfl⟩, fun _ => Or.inl e3⟩
    · exact ⟨1, _, _, _, rfl, set_holds h i e2, Or.inl ⟨rfl, rfl⟩, by intro h; cases h⟩
  | catnum0 i v n =>
    simp only [exec]
    simp only [Legal] at hl
    obtain ⟨ok, r', ans', e1, e2⟩ := catnum0_ok (m i) (l i) (h i) v n hl.1 (by omega) hl.2.2 ans
    rw [e1]
    rcases e2 with ⟨rfl, e2 | ⟨e4, e2⟩, e3⟩ | ⟨rfl, e2⟩
    · exact ⟨0, _, _, l, rfl, by have := set_holds h i e2; rwa [set_self] at this, Or.inr ⟨rfl, Or.inl rfl⟩, fun _ => Or.inl e3⟩
    · exact ⟨0, _, _, _, rfl, set_holds h i e2, Or.inr ⟨rfl, Or.inr ⟨e4, rfl⟩⟩, fun _ => Or.inl e3⟩
    · exact ⟨1, _, _, _, rfl, set_holds h i e2, Or.inl ⟨rfl, rfl⟩, by intro h; cases h⟩
  | catnum i v =>
    simp only [exec]
    simp only [Legal] at hl
    obtain ⟨ok, r', ans', e1, e2⟩ := catnum0_ok (m i) (l i) (h i) v 0 hl.1 (by omega) hl.2 ans
    rw [catnum, e1]
    rcases e2 with ⟨rfl, e2 | ⟨e4, e2⟩, e3⟩ | ⟨rfl, e2⟩
    · exact ⟨0, _, _, l, rfl, by have := set_holds h i e2; rwa [set_self] at this, Or.inr ⟨rfl, Or.inl rfl⟩, fun _ => Or.inl e3⟩
    · exact ⟨0, _, _, _, rfl, set_holds h i e2, Or.inr ⟨rfl, Or.inr ⟨e4, rfl⟩⟩, fun _ => Or.inl e3⟩
    · exact ⟨1, _, _, _, rfl, set_holds h i e2, Or.inl ⟨rfl, rfl⟩, by intro h; cases h⟩
  | copynum i v =>
    simp only [exec]
    simp only [Legal] at hl
    have h0 := holds_empty _ _ (h i)
    obtain ⟨ok, r', ans', e1, e2⟩ := catnum0_ok _ [] h0 v 0 hl (by simp) (by simp) ans
    rw [copynum, catnum, e1]
    rcases e2 with ⟨rfl, e2 | ⟨e4, e2⟩, e3⟩ | ⟨rfl, e2⟩
    · exact ⟨0, _, _, _, rfl, set_holds h i e2, Or.inr ⟨rfl, Or.inl rfl⟩, fun _ => Or.inl e3⟩
    · exact ⟨0, _, _, _, rfl, set_holds h i e2, Or.inr ⟨rfl, Or.inr ⟨e4, rfl⟩⟩, fun _ => Or.inl e3⟩
    · exact ⟨1, _, _, _, rfl, set_holds h i e2, Or.inl ⟨rfl, rfl⟩, by intro h; cases h⟩
  | free i =>
    exact ⟨1, _, ans, _, rfl, set_holds h i (Or.inl ⟨rfl, rfl⟩), Or.inl ⟨rfl, rfl⟩, by intro h; cases h⟩

/-- **C25.** Every sequence of calls on any number of strings runs without undefined behaviour and
has the effect of the same calls on byte lists, wherever allocations fail; every string stays
within its capacity (`Holds`). -/
theorem c25_history (ops : List Op) : ∀ (m : Nat → SA) (l : Nat → Bytes), (∀ k, Holds (m k) (l k)) →
    LegalRun l ops → ∀ ans, ∃ oks m' ans' l', execAll m ans ops = .ok (oks, m', ans') ∧
      SpecRun l ops oks l' ∧ ∀ k, Holds (m' k) (l' k) := by
  induction ops with
  | nil => intro m l h _ ans; exact ⟨_, _, _, l, rfl, SpecRun.nil l, h⟩
  | cons op ops ih =>
    intro m l h hl ans
    obtain ⟨ok, m1, ans1, l1, e1, e2, e3, _⟩ := c25_call m l h op hl.1 ans
    obtain ⟨oks, m2, ans2, l2, f1, f2, f3⟩ := ih m1 l1 e2 (hl.2 ok l1 e3) ans1
    refine ⟨ok :: oks, m2, ans2, l2, ?_, SpecRun.cons e3 f2, f3⟩
    simp only [execAll, e1, f1]

/-- Fresh strings hold the empty list. -/
theorem c25_fresh : ∀ k, Holds ((fun _ : Nat => SA.zero) k) ((fun _ => []) k) :=
  fun _ => Or.inl ⟨rfl, rfl⟩

/-- A string's bytes are what a reader of `s[0..len)` sees. -/
theorem c25_contents (sa : SA) (l : Bytes) (h : Holds sa l) : sa.len = l.length ∧ ((sa.s).getD []).take sa.len = l ∧
    sa.len ≤ sa.alloc := by
  rcases h with ⟨hz, hl⟩ | ⟨b, hs, hbl, hle, hlt, hh, htake⟩
  · rw [hz, hl]; exact ⟨rfl, rfl, Nat.le_refl _⟩
  · rw [hs]; exact ⟨hle, htake, by omega⟩

/-- Reserving room never changes the string. It fails only for a negative size or when memory is
refused, and success for a positive size means room for that many bytes and one more. -/
theorem c25_reserve (r : SA) (l : Bytes) (h : Holds r l) (len : Int) (hb : l.length + len < 2 ^ 62 - 40) (ans : List Bool) :
    ∃ ok r' ans', readyplus r len ans = .ok (ok, r', ans') ∧ Holds r' l ∧
      (ok = 0 ∧ (len < 0 ∨ ans.head? ≠ some true) ∨ ok = 1 ∧ 0 ≤ len ∧ (0 < len → l.length + len + 1 ≤ r'.alloc)) := by
  by_cases h0 : 0 < len
  · obtain ⟨ok, r', ans', e1, -, e2⟩ := readyplus_ok r l h len h0 hb ans
    refine ⟨ok, r', ans', e1, ?_⟩
    rcases e2 with ⟨e2, rfl, e3⟩ | ⟨e2, b, b1, b2, b3, b4, b5, b6⟩
    · exact ⟨h, .inl ⟨e2, .inr e3⟩⟩
    · exact ⟨.inr ⟨b, b1, b2, b3, by omega, b5, b6⟩, .inr ⟨e2, by omega, fun _ => by omega⟩⟩
  · unfold readyplus
    by_cases h1 : len < 0
    · exact ⟨0, r, ans, by rw [if_pos h1], h, .inl ⟨rfl, .inl h1⟩⟩
    · exact ⟨1, r, ans, by rw [if_neg h1, if_pos (by omega)], h, .inr ⟨rfl, by omega, fun h => absurd h h0⟩⟩

/-- Appending a string to itself doubles it, unless it has to grow. The remaining cases are
refusals that leave it as it was, and reading freed memory (`c25_violation_self_append`). -/
theorem c25_self_append (x : SA) (l : Bytes) (h : Holds x l) (hb : 2 * l.length < 2 ^ 62 - 40) (ans : List Bool) :
    match catSelf x ans with
    | .ub => x.alloc < 2 * l.length + 1
    | .ok (ok, r, _) =>
      ok = 0 ∧ r = x ∧ (x.s = none ∨ x.alloc < 2 * l.length + 1 ∧ ans.head? ≠ some true) ∨ ok = 1 ∧ Holds r (l ++ l) := by
  unfold catSelf
  cases hs : x.s with
  | none => exact .inl ⟨rfl, rfl, .inl rfl⟩
  | some b =>
    dsimp only
    rcases h with ⟨hz, -⟩ | ⟨b', h1, h2, h3, h4, h5, h6⟩
    · rw [hz] at hs; cases hs
    have hh : Holds x l := .inr ⟨b', h1, h2, h3, h4, h5, h6⟩
    by_cases h0 : x.len = 0
    · rw [if_pos h0]
      have : l = [] := List.eq_nil_of_length_eq_zero (by omega)
      subst this
      exact .inr ⟨rfl, hh⟩
    · rw [if_neg h0]
      by_cases hg : x.len + x.len + 1 > x.alloc
      · obtain ⟨ok, r', ans', e1, -, e2⟩ := readyplus_ok x l hh x.len (by omega) (by omega) ans
        rw [e1, Out.ok_bind]
        dsimp only
        rcases e2 with ⟨rfl, rfl, e3⟩ | ⟨rfl, c, c1, c2, c3, c4, c5, c6⟩
        · rw [if_pos rfl]
          exact .inl ⟨rfl, rfl, .inr ⟨by omega, e3⟩⟩
        · rw [if_neg (by decide), if_pos (by omega)]
          show x.alloc < _
          omega
      · have e1 : readyplus x x.len ans = .ok (1, x, ans) := by
          unfold readyplus
          rw [if_neg (by omega), if_neg (by omega)]
          dsimp only
          rw [if_neg (by omega), if_neg (by omega)]
        rw [e1, Out.ok_bind]
        dsimp only
        rw [if_neg (by decide), if_neg (by simp), hs]
        rw [hs] at h1
        cases h1
        obtain ⟨c, c1, c2, c3⟩ := Buffer.copyN_at b b x.len x.len (by omega) (by omega)
        dsimp only
        rw [c1]
        refine .inr ⟨rfl, .inr ⟨c, rfl, by simp only; omega, by simp; omega, by simp; omega, h5, ?_⟩⟩
        simp only
        rw [c3, h6]

/-! What the code does not give (so C25's "a failed operation leaves the string unchanged" is only partly true). -/

/-- A failed replacement empties the string. -/
theorem c25_violation_failed_copy : ∃ sa sa', Holds sa b!"abc" ∧
    copyb sa (some (List.replicate 40 7)) 40 [false] = .ok (0, sa', []) ∧ Holds sa' [] :=
  ⟨⟨some (b!"abc" ++ List.replicate 29 0), 3, 32⟩, ⟨some (b!"abc" ++ List.replicate 29 0), 0, 32⟩,
    Or.inr ⟨_, rfl, by decide, by decide, by decide, by decide, by decide⟩, by decide +kernel,
    Or.inr ⟨_, rfl, by decide, by decide, by decide, by decide, by decide⟩⟩

/-- A failed number append can leave a stray minus sign. -/
theorem c25_violation_failed_number : ∃ sa sa', Holds sa (List.replicate 30 120) ∧
    catnum sa (-77) [false] = .ok (0, sa', []) ∧ Holds sa' (List.replicate 30 120 ++ b!"-") :=
  ⟨⟨some (List.replicate 30 120 ++ [0, 0]), 30, 32⟩, ⟨some (List.replicate 30 120 ++ b!"-" ++ [0]), 31, 32⟩,
    Or.inr ⟨_, rfl, by decide, by decide, by decide, by decide, by decide⟩, by decide +kernel,
    Or.inr ⟨_, rfl, by decide, by decide, by decide, by decide, by decide⟩⟩

/-- Appending a string to itself reads freed memory when it has to grow. -/
theorem c25_violation_self_append : ∃ sa, Holds sa (List.replicate 20 120) ∧ catSelf sa [true] = .ub :=
  ⟨⟨some (List.replicate 20 120 ++ List.replicate 12 0), 20, 32⟩,
    Or.inr ⟨_, rfl, by decide, by decide, by decide, by decide, by decide⟩, by decide +kernel⟩

/-- Copying a string onto itself empties it and reports success. -/
theorem c25_violation_self_copy : ∃ sa sa', Holds sa b!"abc" ∧
    exec (fun _ => sa) [] (.copy 0 0) = .ok (1, set (fun _ => sa) 0 sa', []) ∧ Holds sa' [] :=
  ⟨⟨some (b!"abc" ++ List.replicate 29 0), 3, 32⟩, ⟨some (b!"abc" ++ List.replicate 29 0), 0, 32⟩,
    Or.inr ⟨_, rfl, by decide, by decide, by decide, by decide, by decide⟩, rfl,
    Or.inr ⟨_, rfl, by decide, by decide, by decide, by decide, by decide⟩⟩

/-- Appending a never-used empty string reports failure. -/
theorem c25_violation_append_unused (x : SA) (ans : List Bool) : cat x SA.zero ans = .ok (0, x, ans) := rfl

/-! C26 -/

/-- **C26.** Appending a number appends exactly its decimal text, zero-padded to the width, if it reports success. -/
theorem c26_exact (r : SA) (l : Bytes) (h : Holds r l) (v n : Int) (hv : IsLL v)
    (hb1 : l.length + 64 + n < 2 ^ 62 - 64) (hb2 : l.length < 2 ^ 61) (ans : List Bool) :
    ∃ ok r' ans', catnum0 r v n ans = .ok (ok, r', ans') ∧ (ok = 0 ∨ ok = 1) ∧
      (ok = 1 → Holds r' (l ++ numText v n)) ∧ (ans.take 2 = [true, true] → ok = 1) := by
  obtain ⟨ok, r', ans', e1, e2⟩ := catnum0_ok r l h v n hv (by omega) hb2 ans
  refine ⟨ok, r', ans', e1, ?_, ?_, ?_⟩
  · rcases e2 with ⟨h, _⟩ | ⟨h, _⟩ <;> simp [h]
  · intro hk
    rcases e2 with ⟨h, _⟩ | ⟨_, h⟩
    · omega
    · exact h
  · intro ht
    rcases e2 with ⟨_, _, h⟩ | ⟨h, _⟩
    · exact absurd ht h
    · exact h

theorem value_zeros (k : Nat) (ds : Bytes) : value (List.replicate k (c! '0') ++ ds) = value ds := by
  induction k with
  | zero => rfl
  | succ k ih => rw [List.replicate_succ, List.cons_append, ← ih]; rfl

/-- What the text is: an optional minus sign for exactly the negative numbers, then digits whose value is the
magnitude, as many as the canonical text has or the width asks for, whichever is more. -/
theorem c26_text (v n : Int) : ∃ ds, numText v n = (if v < 0 then b!"-" else []) ++ ds ∧
    (∀ d ∈ ds, IsDigit d) ∧ value ds = v.natAbs ∧
    ds.length = max (decimal v.natAbs).length n.toNat := by
  refine ⟨_, rfl, ?_, ?_, ?_⟩
  · intro d hd
    rcases List.mem_append.1 hd with hd | hd
    · rw [(List.mem_replicate.1 hd).2]; decide
    · exact Num.decimal_digits _ d hd
  · rw [value_zeros, Num.value_decimal]
  · simp only [List.length_append, List.length_replicate]; omega

/-- The unpadded text is read back to the same number by the option parser. -/
theorem c26_readback (v : Int) (hv : IsLL v) (rest : Bytes) :
    Num.parsenum llmin llmax (some (cstr (numText v 0) rest)) = .ok (1, v) := by
  have hl1 : IsLL llmin := by unfold IsLL llmin llmax; decide
  have hl2 : IsLL llmax := by unfold IsLL llmin llmax; decide
  have e : (0 : Int).toNat - (decimal v.natAbs).length = 0 := by simp
  unfold numText
  rw [e, List.replicate_zero, List.nil_append]
  obtain ⟨v1, v2⟩ := hv
  by_cases hneg : v < 0
  · rw [if_pos hneg]
    have := Num.c01_parsenum_neg_decimal v.natAbs rest llmin llmax hl1 hl2 (by omega) (by unfold llmax; omega)
    rw [show (-(v.natAbs : Int)) = v by omega] at this
    exact this
  · rw [if_neg hneg]
    have := Num.c01_parsenum_decimal v.natAbs rest llmin llmax hl1 hl2 (by unfold llmin; omega) (by omega)
    rw [show ((v.natAbs : Int)) = v by omega] at this
    exact this

/-- An absurd width overflows a signed addition: the width bound in `c26_exact` is needed. -/
theorem c26_huge_width : catnum0 SA.zero 1 llmax [true] = .ub := by decide +kernel

/-! Concrete cases -/

example : catSelf ⟨some (b!"abc" ++ List.replicate 29 0), 3, 32⟩ [] = .ok (1, ⟨some (b!"abcabc" ++ List.replicate 26 0), 6, 32⟩, []) := by
  decide +kernel

example : readyplus ⟨some (b!"abc" ++ List.replicate 29 0), 3, 32⟩ 0 [] = .ok (1, ⟨some (b!"abc" ++ List.replicate 29 0), 3, 32⟩, []) := by
  decide +kernel
example : (match readyplus ⟨some (b!"abc" ++ List.replicate 29 0), 3, 32⟩ 29 [true] with
    | .ok (ok, r, _) => (ok, r.alloc, r.len) | .ub => (0, 0, 0)) = (1, 96, 3) := by decide +kernel

example : catnum0 SA.zero llmin 0 [true, true] = .ok (1, ⟨some (b!"-9223372036854775808" ++ List.replicate 12 0), 20, 32⟩, [true]) := by
  decide +kernel
example : numText (-7) 3 = b!"-007" := by decide +kernel
example : numText 1234 2 = b!"1234" := by decide +kernel

/-- A legal history: build "ab", append it to another string, add a number, with one allocation refused. -/
example : LegalRun (fun _ => []) [.copyb 0 (some b!"abc") 2, .catnum 1 (-5)] := by
  refine ⟨?_, ?_⟩
  · simp only [Legal]; decide
  · intro ok l' hs
    refine ⟨?_, fun _ _ _ => trivial⟩
    rcases hs with ⟨_, rfl⟩ | ⟨_, hs⟩
    · exact ⟨by unfold IsLL; decide, by decide⟩
    · simp only [failEffect] at hs
      subst hs
      exact ⟨by unfold IsLL; decide, by decide⟩

example : (match execAll (fun _ => SA.zero) [true, true, false] [.copyb 0 (some b!"abc") 2, .copys 1 (some (cstr b!"x-" [])), .cat 0 1,
      .catnum0 0 (-5) 3, .catb 1 (some (List.replicate 40 1)) 40] with
    | .ok (oks, m, _) => (oks, ((m 0).s.getD []).take (m 0).len, (m 1).len)
    | .ub => ([], [], 0)) = ([1, 1, 1, 1, 0], b!"abx--005", 2) := by decide +kernel

end Stralloc
