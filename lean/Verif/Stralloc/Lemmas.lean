import Verif.Stralloc.Spec
import Verif.BaseLemmas
import Verif.Buffer.Lemmas
import Verif.Num.Lemmas
namespace Stralloc
open Num.Spec

abbrev Res := Out (Nat × SA × List Bool)

theorem grow_ok (need na : Nat) (h : need ≤ 2 ^ 62 - 16) : ∃ k, grow need na = .ok k ∧ need ≤ k ∧
    (k = na ∨ k ≤ 2 * need + 30) := by
  fun_induction grow need na with
  | case1 na h1 h2 => omega
  | case2 na h1 h2 ih =>
    obtain ⟨k, h3, h4, h5⟩ := ih
    exact ⟨k, h3, h4, Or.inr (by omega)⟩
  | case3 na h1 => exact ⟨na, rfl, by omega, Or.inl rfl⟩

/-- The string after making room: `extra` more bytes fit (plus one). -/
def Room (sa : SA) (l : Bytes) (extra : Nat) : Prop :=
  ∃ b, sa.s = some b ∧ b.length = sa.alloc ∧ sa.len = l.length ∧ l.length + extra < sa.alloc ∧
    sa.alloc < 2 ^ 63 ∧ b.take sa.len = l

theorem readyplus_ok (r : SA) (l : Bytes) (h : Holds r l) (len : Int) (hpos : 0 < len)
    (hb : l.length + len < 2 ^ 62 - 40) (ans : List Bool) :
    ∃ ok r' ans', readyplus r len ans = .ok (ok, r', ans') ∧ (ans' = ans ∨ ans' = ans.tail) ∧
      ((ok = 0 ∧ r' = r ∧ ans.head? ≠ some true) ∨ (ok = 1 ∧ Room r' l len.toNat)) := by
  have hlen : r.len = l.length := by
    rcases h with ⟨h1, h2⟩ | ⟨b, _, _, h3, _⟩
    · rw [h1, h2]; rfl
    · exact h3
  have hall : r.alloc < 2 ^ 63 := by
    rcases h with ⟨h1, h2⟩ | ⟨b, _, _, _, _, h3, _⟩
    · rw [h1]; decide
    · exact h3
  unfold readyplus
  rw [if_neg (by omega), if_neg (by omega)]
  simp only []
  rw [if_neg (by omega)]
  by_cases h1 : r.len + len.toNat + 1 > r.alloc
  · rw [if_pos h1]
    obtain ⟨k, g1, g2, g3⟩ := grow_ok (r.len + len.toNat + 1) r.alloc (by omega)
    have g4 : k ≤ 2 ^ 63 - 32 := by omega
    rw [g1, Out.ok_bind]
    cases ans with
    | nil => exact ⟨_, _, _, rfl, Or.inl rfl, Or.inl ⟨rfl, rfl, by simp⟩⟩
    | cons a as =>
      cases a with
      | false => exact ⟨_, _, _, rfl, Or.inr rfl, Or.inl ⟨rfl, rfl, by simp⟩⟩
      | true =>
        have ha : allocate k (true :: as) = (some (List.replicate k 0), as) := by
          simp only [allocate]
          rw [if_pos ⟨trivial, g4⟩]
        rw [ha]
        simp only []
        rcases h with ⟨hz, hl⟩ | ⟨b, hs, hbl, _, hlt, _, htake⟩
        · subst hz; subst hl
          exact ⟨_, _, _, rfl, Or.inr rfl, Or.inr ⟨rfl, _, rfl, by simp, rfl, by simp only [SA.zero, List.length_nil] at *; omega, by simp only []; omega, by simp [SA.zero]⟩⟩
        · rw [hs]
          simp only []
          obtain ⟨x', c1, c2, c3⟩ := Buffer.copyN_at (List.replicate k 0) b 0 r.len (by omega) (by simp; omega)
          rw [c1, Out.ok_bind]
          refine ⟨_, _, _, rfl, Or.inr rfl, Or.inr ⟨rfl, x', rfl, by rw [c2]; simp, hlen, by simp only []; omega, by simp only []; omega, ?_⟩⟩
          simp only [Nat.zero_add, List.take_zero, List.nil_append] at c3
          rw [c3, htake]
  · rw [if_neg h1]
    refine ⟨_, _, _, rfl, Or.inl rfl, Or.inr ⟨rfl, ?_⟩⟩
    rcases h with ⟨hz, hl⟩ | ⟨b, hs, hbl, hle, hlt, hh, htake⟩
    · rw [hz] at h1; simp [SA.zero] at h1
    · exact ⟨b, hs, hbl, hle, by omega, hh, htake⟩

/-- Outcome of an appending call: failure leaves things alone, success appends `x`. -/
def Appends (r : SA) (l x : Bytes) (ans : List Bool) (res : Res) : Prop :=
  ∃ ok r' ans', res = .ok (ok, r', ans') ∧ (ans' = ans ∨ ans' = ans.tail) ∧
    ((ok = 0 ∧ r' = r ∧ (ans.head? ≠ some true)) ∨ (ok = 1 ∧ Holds r' (l ++ x)))

theorem catb_ok (r : SA) (l : Bytes) (h : Holds r l) (x : Bytes) (xlen : Int) (h0 : 0 ≤ xlen)
    (hx : xlen ≤ x.length) (hb : l.length + xlen < 2 ^ 62 - 40) (ans : List Bool) :
    Appends r l (x.take xlen.toNat) ans (catb r (some x) xlen ans) := by
  unfold catb
  simp only []
  rw [if_neg (by omega)]
  by_cases hz : xlen = 0
  · rw [if_pos hz]
    exact ⟨_, _, _, rfl, Or.inl rfl, Or.inr ⟨rfl, by rw [hz]; simpa using h⟩⟩
  rw [if_neg hz]
  obtain ⟨ok, r', ans', e1, e2, e3⟩ := readyplus_ok r l h xlen (by omega) hb ans
  rw [e1, Out.ok_bind]
  rcases e3 with ⟨rfl, rfl, e3⟩ | ⟨rfl, b, hs, hbl, hle, hroom, hh, htake⟩
  · exact ⟨_, _, _, rfl, e2, Or.inl ⟨rfl, rfl, e3⟩⟩
  · simp only [hs]
    obtain ⟨x', c1, c2, c3⟩ := Buffer.copyN_at b x r'.len xlen.toNat (by omega) (by omega)
    rw [if_neg (by decide), c1, Out.ok_bind]
    refine ⟨_, _, _, rfl, e2, Or.inr ⟨rfl, Or.inr ⟨x', rfl, by rw [c2, hbl], ?_, ?_, hh, ?_⟩⟩⟩
    · simp only [List.length_append, List.length_take]; omega
    · simp only []; omega
    · rw [c3, htake]

theorem strlen_ok (m : Bytes) (h : (0 : Byte) ∈ m) : strlen m = .ok (cstring m).length ∧
    (cstring m).length ≤ m.length ∧ m.take (cstring m).length = cstring m := by
  unfold cstring
  induction m with
  | nil => simp at h
  | cons b m ih =>
    unfold strlen
    by_cases hb : b = 0
    · simp [hb]
    · rw [if_neg hb]
      obtain ⟨i1, i2, i3⟩ := ih (by rcases List.mem_cons.1 h with h | h; exact absurd h.symm hb; exact h)
      rw [i1]
      rw [List.takeWhile_cons_of_pos (by simp [hb])]
      simp only [List.length_cons, List.take_succ_cons, i3, and_true, true_and]
      omega

theorem cats_ok (r : SA) (l : Bytes) (h : Holds r l) (x : Bytes) (hx : (0 : Byte) ∈ x)
    (hb : l.length + x.length < 2 ^ 62 - 40) (ans : List Bool) :
    Appends r l (cstring x) ans (cats r (some x) ans) := by
  unfold cats
  simp only []
  obtain ⟨s1, s2, s3⟩ := strlen_ok x hx
  rw [s1, Out.ok_bind]
  have := catb_ok r l h x (cstring x).length (by omega) (by omega) (by omega) ans
  rw [Int.toNat_natCast, s3] at this
  exact this

theorem digits_eq (u : Nat) : digits u = (decimal u).length := by
  induction u using decimal.induct with
  | case1 n h => rw [decimal, if_pos h, digits, if_neg (by omega)]; rfl
  | case2 n h ih =>
    rw [decimal, if_neg h, digits, if_pos (by omega), ih]
    simp

/-- `u` in exactly `len` digits. -/
def padded (len u : Nat) : Bytes := List.replicate (len - (decimal u).length) (c! '0') ++ decimal u

/-- The low `len` digits of `u`, most significant first. -/
def low : Nat → Nat → Bytes
  | 0, _ => []
  | len + 1, u => low len (u / 10) ++ [UInt8.ofNat (48 + u % 10)]

theorem low_length (len u : Nat) : (low len u).length = len := by
  induction len generalizing u with
  | zero => rfl
  | succ n ih => simp [low, ih]

theorem fill_ok (off : Nat) (len : Nat) (buf : Bytes) (u : Nat) (h : off + len ≤ buf.length) :
    fill buf off len u = .ok (buf.take off ++ low len u ++ buf.drop (off + len)) := by
  induction len generalizing buf u with
  | zero => simp [fill, low]
  | succ n ih =>
    unfold fill
    rw [wr_lt _ _ _ (by omega)]
    simp only []
    rw [ih _ _ (by simp; omega)]
    simp only [Out.ok.injEq, low]
    rw [List.take_set_of_le (by omega), List.drop_set, if_neg (by omega), Nat.sub_self]
    have : (List.drop (off + n) buf).set 0 (UInt8.ofNat (48 + u % 10)) =
        UInt8.ofNat (48 + u % 10) :: buf.drop (off + (n + 1)) := by
      cases hd : buf.drop (off + n) with
      | nil => have := congrArg List.length hd; simp at this; omega
      | cons y ys =>
        have := congrArg (List.drop 1) hd
        rw [List.drop_drop] at this
        simp only [List.drop_succ_cons, List.drop_zero] at this
        rw [List.set_cons_zero, ← this]
        congr 1
    rw [this]
    simp

theorem low_zero (len : Nat) : low len 0 = List.replicate len (c! '0') := by
  induction len with
  | zero => rfl
  | succ n ih =>
    simp only [low, Nat.zero_div, ih]
    rw [List.replicate_succ']
    rfl

theorem low_eq_padded (len u : Nat) (h : (decimal u).length ≤ len) : low len u = padded len u := by
  induction u using decimal.induct generalizing len with
  | case1 n hn =>
    have e : decimal n = [UInt8.ofNat (48 + n)] := by rw [decimal, if_pos hn]
    cases len with
    | zero => rw [e] at h; simp at h
    | succ k =>
      have h1 : n / 10 = 0 := by omega
      have h2 : n % 10 = n := by omega
      simp only [low, padded, e, h1, h2, low_zero]
      simp
  | case2 n hn ih =>
    have e : decimal n = decimal (n / 10) ++ [UInt8.ofNat (48 + n % 10)] := by rw [decimal, if_neg hn]
    cases len with
    | zero => rw [e] at h; simp at h
    | succ k =>
      rw [e] at h
      simp only [List.length_append, List.length_singleton] at h
      simp only [low]
      rw [ih k (by omega)]
      simp only [padded, e, List.length_append, List.length_singleton]
      rw [Nat.add_sub_add_right, List.append_assoc]

theorem catunum0_ok (r : SA) (l : Bytes) (h : Holds r l) (u : Nat) (n : Int) (hu : (decimal u).length < 64)
    (hb1 : l.length + 64 + n < 2 ^ 62 - 40) (hb2 : l.length < 2 ^ 61 + 10) (ans : List Bool) :
    Appends r l (List.replicate (n.toNat - (decimal u).length) (c! '0') ++ decimal u) ans (catunum0 r u n ans) := by
  have hd1 : 0 < (decimal u).length := by
    have := Num.decimal_ne_nil u
    exact List.length_pos_iff.2 this
  unfold catunum0
  simp only [digits_eq]
  generalize hL : (if ((decimal u).length : Int) < n then n else ((decimal u).length : Int)) = L
  have hL1 : ((decimal u).length : Int) ≤ L ∧ L ≤ 64 + n ∨ L = (decimal u).length := by
    split at hL <;> omega
  have hL2 : (decimal u).length ≤ L.toNat := by split at hL <;> omega
  have hL3 : n.toNat - (decimal u).length = L.toNat - (decimal u).length := by split at hL <;> omega
  obtain ⟨ok, r', ans', e1, e2, e3⟩ := readyplus_ok r l h L (by omega) (by split at hL <;> omega) ans
  rw [e1, Out.ok_bind]
  rcases e3 with ⟨rfl, rfl, e3⟩ | ⟨rfl, b, hs, hbl, hle, hroom, hh, htake⟩
  · exact ⟨_, _, _, rfl, e2, Or.inl ⟨rfl, rfl, e3⟩⟩
  · simp only [hs]
    rw [if_neg (by decide), fill_ok _ _ _ _ (by omega), Out.ok_bind]
    refine ⟨_, _, _, rfl, e2, Or.inr ⟨rfl, Or.inr ⟨_, rfl, ?_, ?_, ?_, hh, ?_⟩⟩⟩
    · simp only [List.length_append, List.length_take, List.length_drop, low_length]; omega
    · simp only [List.length_append, List.length_replicate]; omega
    · simp only []; omega
    · simp only []
      rw [htake, List.take_append_of_le_length (by simp [low_length]; omega), List.take_of_length_le (by simp [low_length]; omega),
        low_eq_padded _ _ hL2, padded, hL3]

theorem decimal_length_le (k : Nat) : ∀ n, n < 10 ^ (k + 1) → (decimal n).length ≤ k + 1 := by
  induction k with
  | zero => intro n h; rw [decimal, if_pos (by omega)]; simp
  | succ k ih =>
    intro n h
    rw [decimal]
    split
    · simp
    · have := ih (n / 10) (by
        rw [Nat.pow_succ] at h
        omega)
      simp only [List.length_append, List.length_singleton]
      omega

theorem toU64_small (v : Int) (h0 : 0 ≤ v) (h1 : v < 2 ^ 64) : toU64 v = v.toNat := by
  unfold toU64; omega

theorem toU64_neg (v : Int) (h0 : v < 0) (h1 : -2 ^ 63 ≤ v) : toU64 (-(toU64 v : Int)) = v.natAbs := by
  unfold toU64; omega

/-- Holding is unaffected by emptying the string. -/
theorem holds_empty (r : SA) (l : Bytes) (h : Holds r l) : Holds { r with len := 0 } [] := by
  rcases h with ⟨hz, hl⟩ | ⟨b, hs, hbl, hle, hlt, hh, htake⟩
  · left; rw [hz]; exact ⟨rfl, rfl⟩
  · right; exact ⟨b, hs, hbl, rfl, by simp only []; omega, hh, by simp⟩

/-- Outcome of appending a number: on failure the sign of a negative number may remain. -/
def AppendsNum (r : SA) (l : Bytes) (v n : Int) (ans : List Bool) (res : Res) : Prop :=
  ∃ ok r' ans', res = .ok (ok, r', ans') ∧
    ((ok = 0 ∧ ((Holds r' l) ∨ (v < 0 ∧ Holds r' (l ++ b!"-"))) ∧ ans.take 2 ≠ [true, true]) ∨
     (ok = 1 ∧ Holds r' (l ++ numText v n)))

theorem catnum0_ok (r : SA) (l : Bytes) (h : Holds r l) (v n : Int) (hv : IsLL v)
    (hb1 : l.length + 64 + n < 2 ^ 62 - 50) (hb2 : l.length < 2 ^ 61) (ans : List Bool) :
    AppendsNum r l v n ans (catnum0 r v n ans) := by
  have hv1 : -2 ^ 63 ≤ v ∧ v < 2 ^ 63 := by
    unfold IsLL llmin llmax at hv; omega
  have hd : (decimal v.natAbs).length < 64 := by
    have := decimal_length_le 19 v.natAbs (by omega)
    omega
  unfold catnum0
  by_cases hneg : v < 0
  · rw [if_pos hneg]
    obtain ⟨ok, r', ans', e1, e2, e3⟩ := catb_ok r l h [c! '-'] 1 (by omega) (by simp) (by omega) ans
    rw [append, e1, Out.ok_bind]
    rcases e3 with ⟨rfl, rfl, e3⟩ | ⟨rfl, e3⟩
    · refine ⟨_, _, _, rfl, Or.inl ⟨rfl, Or.inl h, ?_⟩⟩
      intro e; apply e3
      cases ans with
      | nil => simp at e
      | cons a as => simp at e; simp [e]
    · simp only []
      rw [if_neg (by decide), toU64_neg v hneg hv1.1]
      have e3' : Holds r' (l ++ b!"-") := e3
      obtain ⟨ok2, r2, ans2, f1, f2, f3⟩ := catunum0_ok r' (l ++ b!"-") e3' v.natAbs n hd
        (by simp only [List.length_append, List.length_singleton]; omega)
        (by simp only [List.length_append, List.length_singleton]; omega) ans'
      rw [f1]
      rcases f3 with ⟨rfl, rfl, f3⟩ | ⟨rfl, f3⟩
      · refine ⟨_, _, _, rfl, Or.inl ⟨rfl, Or.inr ⟨hneg, e3'⟩, ?_⟩⟩
        intro e; apply f3
        cases ans with
        | nil => simp at e
        | cons a as =>
          cases as with
          | nil => simp at e
          | cons a2 as =>
            simp at e
            rcases e2 with e2 | e2 <;> rw [e2] <;> simp [e]
      · refine ⟨_, _, _, rfl, Or.inr ⟨rfl, ?_⟩⟩
        unfold numText
        rw [if_pos hneg]
        rw [List.append_assoc] at f3
        exact f3
  · rw [if_neg hneg, toU64_small v (by omega) (by omega)]
    have e : v.toNat = v.natAbs := by omega
    rw [e]
    obtain ⟨ok2, r2, ans2, f1, f2, f3⟩ := catunum0_ok r l h v.natAbs n hd (by omega) (by omega) ans
    rw [f1]
    rcases f3 with ⟨rfl, rfl, f3⟩ | ⟨rfl, f3⟩
    · refine ⟨_, _, _, rfl, Or.inl ⟨rfl, Or.inl h, ?_⟩⟩
      intro e; apply f3
      cases ans with
      | nil => simp at e
      | cons a as => simp at e; simp [e]
    · refine ⟨_, _, _, rfl, Or.inr ⟨rfl, ?_⟩⟩
      unfold numText
      rw [if_neg hneg, List.nil_append]
      exact f3

end Stralloc
