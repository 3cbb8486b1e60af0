import Verif.BaseLemmas
import Verif.Num.Model
import Verif.Num.Spec
/-
Helper lemmas about the number parser and formatter.
-/
namespace Num
open Spec

theorem u8_ne_zero {b : UInt8} : b ≠ 0 ↔ b.toNat ≠ 0 := by
  constructor
  · intro h h'; exact h (UInt8.toNat_inj.mp h')
  · intro h h'; subst h'; exact h rfl

def valueFrom (a : Nat) (ds : Bytes) : Nat := ds.foldl (fun a d => 10 * a + (d.toNat - 48)) a

theorem valueFrom_ge (ds : Bytes) : ∀ a, a ≤ valueFrom a ds := by
  induction ds with
  | nil => intro a; exact Nat.le_refl a
  | cons d ds ih =>
    intro a
    have := ih (10 * a + (d.toNat - 48))
    simp only [valueFrom, List.foldl_cons] at *
    omega

theorem digit_code (b : Byte) : (toU64 (schar b - 48) > 9 ↔ ¬ IsDigit b) ∧
    (IsDigit b → toU64 (schar b - 48) = b.toNat - 48) := by
  have hb := b.toNat_lt
  unfold toU64 schar IsDigit
  constructor
  · split <;> omega
  · intro h; split <;> omega

theorem digitLoop_ok (s rest : Bytes) (hs : NoNul s) : ∀ (ret i : Nat), ret < 2 ^ 64 →
    digitLoop (cstr s rest) ret i =
      .ok (if (∀ d ∈ s, IsDigit d) ∧ valueFrom ret s < 2 ^ 64
        then some (valueFrom ret s, i + s.length) else none) := by
  induction s with
  | nil => intro ret i h; simp [cstr, digitLoop, valueFrom]; omega
  | cons b s ih =>
    intro ret i h
    have hb : b ≠ 0 := hs b (by simp)
    have hs' : NoNul s := fun x hx => hs x (by simp [hx])
    have hc := digit_code b
    simp only [cstr, List.cons_append, digitLoop, hb, if_false]
    by_cases hd : IsDigit b
    · have h1 : ¬ toU64 (schar b - 48) > 9 := by rw [hc.1]; simpa using hd
      have h2 := hc.2 hd
      have hdd := hd
      unfold IsDigit at hdd
      rw [if_neg h1, h2]
      have hge := valueFrom_ge s (10 * ret + (b.toNat - 48))
      have hvf : valueFrom ret (b :: s) = valueFrom (10 * ret + (b.toNat - 48)) s := rfl
      by_cases hov : ret > (u64max - (b.toNat - 48)) / 10
      · rw [if_pos hov, if_neg]
        rintro ⟨-, hlt⟩
        rw [hvf] at hlt
        unfold u64max at hov
        omega
      · rw [if_neg hov]
        have hlt : 10 * ret + (b.toNat - 48) < 2 ^ 64 := by unfold u64max at hov; omega
        rw [Nat.mod_eq_of_lt hlt]
        have := ih hs' _ (i + 1) hlt
        simp only [cstr] at this
        rw [this, hvf]
        simp only [List.forall_mem_cons, List.length_cons, hd, true_and]
        congr 2
        simp only [Option.some.injEq, Prod.mk.injEq, true_and]
        omega
    · have h1 : toU64 (schar b - 48) > 9 := hc.1.mpr hd
      rw [if_pos h1, if_neg]
      simp [hd]

theorem numeral_iff (ds : Bytes) : Numeral ds ↔
    ds ≠ [] ∧ (∀ d ∈ ds, IsDigit d) ∧ (ds.head? = some (c! '0') → ds = [c! '0']) :=
  ⟨fun ⟨a, b, c⟩ => ⟨a, b, c⟩, fun ⟨a, b, c⟩ => ⟨a, b, c⟩⟩

theorem value_eq (ds : Bytes) : value ds = valueFrom 0 ds := rfl

theorem leadingZero_ok (s rest : Bytes) (hs : NoNul s) :
    leadingZero (cstr s rest) =
      .ok (decide ¬ (s.head? = some (c! '0') → s = [c! '0'])) := by
  match s, hs with
  | [], _ => simp [leadingZero, cstr, rd_cons_zero]
  | [b], hs =>
    by_cases h0 : b = 48 <;> simp [leadingZero, cstr, rd_cons_zero, rd_cons_succ, h0]
  | b :: b' :: s', hs =>
    have hb' : b' ≠ 0 := hs b' (by simp)
    by_cases h0 : b = 48 <;> simp [leadingZero, cstr, rd_cons_zero, rd_cons_succ, h0, hb']

/-- The signed value selected by the sign flag. -/
def signed (sgn : Bool) (n : Nat) : Int := if sgn then -(n : Int) else n

open Classical in
theorem magnitude_ok (sgn : Bool) (s rest : Bytes) (hs : NoNul s) :
    magnitude sgn (cstr s rest) = .ok
      (if Numeral s ∧ IsLL (signed sgn (value s)) then some (signed sgn (value s)) else none) := by
  have hll : ∀ x : Nat, IsLL (x : Int) ↔ x ≤ parsenumMAXu := by
    intro x; unfold IsLL llmin llmax parsenumMAXu; omega
  have hlln : ∀ x : Nat, IsLL (-(x : Int)) ↔ x ≤ parsenumMAXu + 1 := by
    intro x; unfold IsLL llmin llmax parsenumMAXu; omega
  unfold magnitude
  rw [leadingZero_ok s rest hs, digitLoop_ok s rest hs 0 0 (by omega), numeral_iff, value_eq]
  simp only [Out.ok_bind, Out.pure_eq, decide_eq_true_eq, Nat.zero_add]
  by_cases hcan : (s.head? = some 48 → s = [48])
  · rw [if_neg (not_not.mpr hcan)]
    congr 1
    by_cases hd : ∀ d ∈ s, IsDigit d
    · by_cases hv : valueFrom 0 s < 2 ^ 64
      · rw [if_pos ⟨hd, hv⟩]
        by_cases he : s = []
        · simp [he, applySign]
        · have hlen : s.length ≠ 0 := by simpa using he
          cases sgn
          · simp only [applySign, hlen, signed, Bool.false_eq_true, if_false, hll]
            by_cases hgt : valueFrom 0 s > parsenumMAXu
            · rw [if_pos hgt, if_neg]; rintro ⟨-, h⟩; omega
            · rw [if_neg hgt, if_pos]; exact ⟨⟨he, hd, hcan⟩, by omega⟩
          · simp only [applySign, hlen, signed, if_false, if_true, hlln]
            by_cases hgt : valueFrom 0 s > parsenumMAXu + 1
            · rw [if_pos hgt, if_neg]; rintro ⟨-, h⟩; omega
            · rw [if_neg hgt]
              rw [if_pos (show _ ∧ _ from ⟨⟨he, hd, hcan⟩, by omega⟩)]
              by_cases heq : valueFrom 0 s = parsenumMAXu + 1
              · rw [if_pos heq, heq]; rfl
              · rw [if_neg heq]
      · rw [if_neg (by rintro ⟨-, h⟩; exact hv h), if_neg]
        · rfl
        · rintro ⟨-, h⟩
          cases sgn
          · simp only [signed, Bool.false_eq_true, if_false, hll] at h
            unfold parsenumMAXu at h; omega
          · simp only [signed, if_true, hlln] at h; unfold parsenumMAXu at h; omega
    · rw [if_neg (by rintro ⟨h, -⟩; exact hd h), if_neg]
      · rfl
      · rintro ⟨⟨-, h, -⟩, -⟩; exact hd h
  · rw [if_pos hcan, if_neg]
    rintro ⟨⟨-, -, h⟩, -⟩; exact hcan h

theorem numeral_head (b : Byte) (ds : Bytes) (h : Numeral (b :: ds)) :
    b ≠ c! '+' ∧ b ≠ c! '-' ∧ b ≠ 0 := by
  have := h.digits b (by simp)
  unfold IsDigit at this
  refine ⟨?_, ?_, ?_⟩ <;> rintro rfl <;> simp at this

theorem denotes_iff (s : Bytes) (v : Int) : Denotes s v ↔
    (Numeral s ∧ v = value s) ∨
    (∃ ds, s = c! '+' :: ds ∧ Numeral ds ∧ v = value ds) ∨
    (∃ ds, s = c! '-' :: ds ∧ Numeral ds ∧ v = -(value ds : Int)) := by
  constructor
  · intro h
    cases h with
    | plain h => exact .inl ⟨h, rfl⟩
    | plus h => exact .inr (.inl ⟨_, rfl, h, rfl⟩)
    | minus h => exact .inr (.inr ⟨_, rfl, h, rfl⟩)
  · rintro (⟨h, rfl⟩ | ⟨ds, rfl, h, rfl⟩ | ⟨ds, rfl, h, rfl⟩)
    · exact .plain h
    · exact .plus h
    · exact .minus h

/-- The sign-handling step computes exactly the denoted value, when it is a
`long long`. -/
theorem signedNumber_ok (s rest : Bytes) (hs : NoNul s) :
    ∃ r, signedNumber (cstr s rest) = .ok r ∧ ∀ v, r = some v ↔ (Denotes s v ∧ IsLL v) := by
  classical
  match s, hs with
  | [], _ =>
    refine ⟨none, by simp [signedNumber, cstr, rd_cons_zero], ?_⟩
    intro v
    simp only [reduceCtorEq, false_iff, denotes_iff]
    rintro ⟨(⟨h, -⟩ | ⟨ds, h, -⟩ | ⟨ds, h, -⟩), -⟩
    · exact h.nonempty rfl
    · cases h
    · cases h
  | b :: s, hs =>
    have hb : b ≠ 0 := hs b (by simp)
    have hs' : NoNul s := fun x hx => hs x (by simp [hx])
    simp only [signedNumber, cstr_cons, rd_cons_zero, Out.ok_bind, hb, if_false,
      List.drop_succ_cons, List.drop_zero]
    by_cases hp : b = c! '+'
    · rw [if_pos hp, magnitude_ok _ _ _ hs']
      refine ⟨_, rfl, ?_⟩
      intro v
      rw [denotes_iff]
      have hn : ¬ Numeral (b :: s) := fun h => (numeral_head _ _ h).1 hp
      simp only [signed, Bool.false_eq_true, if_false]
      subst hp
      constructor
      · intro h
        split at h
        · rename_i h'
          cases h
          exact ⟨.inr (.inl ⟨s, rfl, h'.1, rfl⟩), h'.2⟩
        · cases h
      · rintro ⟨(⟨h, -⟩ | ⟨ds, h, h1, rfl⟩ | ⟨ds, h, -⟩), h2⟩
        · exact absurd h hn
        · cases h; rw [if_pos ⟨h1, h2⟩]
        · simp at h
    · rw [if_neg hp]
      by_cases hm : b = c! '-'
      · rw [if_pos hm, magnitude_ok _ _ _ hs']
        refine ⟨_, rfl, ?_⟩
        intro v
        rw [denotes_iff]
        have hn : ¬ Numeral (b :: s) := fun h => (numeral_head _ _ h).2.1 hm
        simp only [signed, if_true]
        subst hm
        constructor
        · intro h
          split at h
          · rename_i h'
            cases h
            exact ⟨.inr (.inr ⟨s, rfl, h'.1, rfl⟩), h'.2⟩
          · cases h
        · rintro ⟨(⟨h, -⟩ | ⟨ds, h, -⟩ | ⟨ds, h, h1, rfl⟩), h2⟩
          · exact absurd h hn
          · simp at h
          · cases h; rw [if_pos ⟨h1, h2⟩]
      · rw [if_neg hm, ← cstr_cons, magnitude_ok _ _ _ hs]
        refine ⟨_, rfl, ?_⟩
        intro v
        rw [denotes_iff]
        simp only [signed, Bool.false_eq_true, if_false]
        constructor
        · intro h
          split at h
          · rename_i h'
            cases h
            exact ⟨.inl ⟨h'.1, rfl⟩, h'.2⟩
          · cases h
        · rintro ⟨(⟨h, rfl⟩ | ⟨ds, h, -⟩ | ⟨ds, h, -⟩), h2⟩
          · rw [if_pos ⟨h, h2⟩]
          · cases h; exact absurd rfl hp
          · cases h; exact absurd rfl hm

theorem head?_append_ne {xs : Bytes} (ys : Bytes) (h : xs ≠ []) :
    (xs ++ ys).head? = xs.head? := by
  cases xs with
  | nil => exact absurd rfl h
  | cons => rfl

theorem decimal_ne_nil (n : Nat) : decimal n ≠ [] := by
  unfold decimal; split <;> simp

theorem decimal_digits (n : Nat) : ∀ d ∈ decimal n, IsDigit d := by
  induction n using decimal.induct with
  | case1 n h =>
    intro d hd
    rw [decimal, if_pos h, List.mem_singleton] at hd
    subst hd
    unfold IsDigit
    rw [UInt8.toNat_ofNat_of_lt' (by simp [UInt8.size]; omega)]
    omega
  | case2 n h ih =>
    intro d hd
    rw [decimal, if_neg h, List.mem_append] at hd
    rcases hd with hd | hd
    · exact ih d hd
    · rw [List.mem_singleton] at hd
      subst hd
      unfold IsDigit
      rw [UInt8.toNat_ofNat_of_lt' (by simp [UInt8.size]; omega)]
      omega

theorem value_append (xs : Bytes) (d : Byte) :
    value (xs ++ [d]) = 10 * value xs + (d.toNat - 48) := by
  simp [value, List.foldl_append]

theorem value_decimal (n : Nat) : value (decimal n) = n := by
  induction n using decimal.induct with
  | case1 n h =>
    rw [decimal, if_pos h]
    simp only [value, List.foldl_cons, List.foldl_nil]
    rw [UInt8.toNat_ofNat_of_lt' (by simp [UInt8.size]; omega)]
    omega
  | case2 n h ih =>
    rw [decimal, if_neg h, value_append, ih]
    rw [UInt8.toNat_ofNat_of_lt' (by simp [UInt8.size]; omega)]
    omega

theorem decimal_head_pos (n : Nat) (h : 0 < n) : (decimal n).head? ≠ some (c! '0') := by
  induction n using decimal.induct with
  | case1 n h1 =>
    rw [decimal, if_pos h1, List.head?_cons]
    intro h2
    have h3 := congrArg UInt8.toNat (Option.some.inj h2)
    rw [UInt8.toNat_ofNat_of_lt' (by simp [UInt8.size]; omega)] at h3
    simp at h3
    omega
  | case2 n h1 ih =>
    rw [decimal, if_neg h1, head?_append_ne _ (decimal_ne_nil _)]
    exact ih (by omega)

theorem numeral_decimal (n : Nat) : Numeral (decimal n) := by
  refine ⟨decimal_ne_nil n, decimal_digits n, ?_⟩
  intro h
  by_cases hn : 0 < n
  · exact absurd h (decimal_head_pos n hn)
  · have : n = 0 := by omega
    subst this
    simp [decimal]

/-- A canonical numeral is the decimal text of its value. -/
theorem decimal_value (ds : Bytes) (h : Numeral ds) : decimal (value ds) = ds := by
  -- reverse induction on the digit list, generalised over a nonzero head
  have key : ∀ ds : Bytes, ds ≠ [] → (∀ d ∈ ds, IsDigit d) → ds.head? ≠ some (c! '0') →
      0 < value ds ∧ decimal (value ds) = ds := by
    intro ds
    induction hn : ds.length generalizing ds with
    | zero => intro h; simp at hn; exact absurd hn h
    | succ k ih =>
      intro _ hd hh
      obtain ⟨xs, d, rfl⟩ : ∃ xs d, ds = xs ++ [d] :=
        ⟨ds.dropLast, ds.getLast (by intro h; simp [h] at hn),
          (List.dropLast_concat_getLast _).symm⟩
      have hdd : IsDigit d := hd d (by simp)
      unfold IsDigit at hdd
      have hof : ∀ m, m = d.toNat → UInt8.ofNat m = d := by
        intro m hm; subst hm; simp
      rw [value_append]
      by_cases hx : xs = []
      · subst hx
        have hne : d ≠ 48 := by simpa using hh
        have h1 : d.toNat ≠ 48 := fun h => hne (UInt8.toNat_inj.mp h)
        refine ⟨by simp [value]; omega, ?_⟩
        rw [decimal, if_pos (by simp [value]; omega)]
        simp only [List.nil_append, List.cons.injEq, and_true]
        exact hof _ (by simp [value]; omega)
      · have h1 := ih xs (by simp at hn; omega) hx (fun y hy => hd y (by simp [hy]))
          (by rwa [head?_append_ne _ hx] at hh)
        refine ⟨by omega, ?_⟩
        rw [decimal, if_neg (by omega)]
        have h2 : (10 * value xs + (d.toNat - 48)) / 10 = value xs := by omega
        rw [h2, h1.2]
        congr 2
        exact hof _ (by omega)
  by_cases hz : ds.head? = some (c! '0')
  · rw [h.canonical hz]; simp [value, decimal]
  · exact (key ds h.nonempty h.digits hz).2

theorem countLoop_eq (n : Nat) : countLoop n = (decimal n).length := by
  induction n using decimal.induct with
  | case1 n h =>
    rw [decimal, if_pos h, countLoop, if_pos (by omega)]; rfl
  | case2 n h ih =>
    rw [decimal, if_neg h, countLoop, if_neg (by omega), ih]
    simp; omega

theorem writeLoop_ok (n : Nat) : ∀ (buf : Bytes), (decimal n).length ≤ buf.length →
    writeLoop buf (decimal n).length n = .ok (decimal n ++ buf.drop (decimal n).length, 0) := by
  induction n using decimal.induct with
  | case1 n h =>
    intro buf hb
    rw [decimal, if_pos h] at *
    simp only [List.length_singleton] at *
    rw [writeLoop.eq_def]
    have h1 : n % 10 = n := by omega
    have h2 : n / 10 = 0 := by omega
    simp only [h1, h2, if_true]
    rw [if_pos (by omega)]
    cases buf with
    | nil => simp at hb
    | cons x xs => simp
  | case2 n h ih =>
    intro buf hb
    have hdec : decimal n = decimal (n / 10) ++ [UInt8.ofNat (48 + n % 10)] := by
      rw [decimal, if_neg h]
    rw [hdec] at hb
    rw [hdec]
    simp only [List.length_append, List.length_singleton] at hb
    simp only [List.length_append, List.length_singleton]
    rw [writeLoop.eq_def]
    simp only
    rw [if_pos (by omega), if_neg (by omega), ih _ (by simp; omega)]
    simp only [Out.ok.injEq, Prod.mk.injEq, and_true, List.append_assoc]
    congr 1
    rw [List.drop_set, if_neg (by omega), Nat.sub_self]
    cases hd : buf.drop (decimal (n / 10)).length with
    | nil => have := congrArg List.length hd; simp at this; omega
    | cons y ys =>
      simp only [List.set_cons_zero, List.cons_append, List.nil_append]
      have := congrArg (List.drop 1) hd
      rw [List.drop_drop] at this
      simp at this
      rw [this]

theorem fillLoop_ok (xs : Bytes) : ∀ (k : Nat) (ys : Bytes), xs.length + k = PORTTOSTR_LEN →
    k ≤ ys.length →
    fillLoop (xs ++ ys) 0 xs.length = .ok (xs ++ (List.replicate k 0 ++ ys.drop k)) := by
  intro k
  induction k generalizing xs with
  | zero => intro ys h1 h2; rw [fillLoop, if_neg (by omega)]; simp
  | succ k ih =>
    intro ys h1 h2
    cases ys with
    | nil => simp at h2
    | cons y ys =>
      rw [fillLoop, if_pos (by omega), if_pos (by simp)]
      have := ih (xs ++ [0]) ys (by simp; omega) (by simpa using h2)
      simp only [List.length_append, List.length_singleton, List.append_assoc, List.cons_append,
        List.nil_append] at this
      simp only [Nat.zero_add, List.set_append_right _ _ (Nat.le_refl _), Nat.sub_self,
        List.set_cons_zero]
      rw [this]
      simp [List.replicate_succ]

theorem decimal_length_port (n : Nat) (h : n < 65536) : (decimal n).length ≤ 5 := by
  have step : ∀ m k, (m < 10 ∨ (decimal (m / 10)).length ≤ k) → (decimal m).length ≤ k + 1 := by
    intro m k hm
    rw [decimal]; split
    · simp
    · simp; omega
  refine step n 4 (.inr ?_)
  refine step _ 3 (.inr ?_)
  refine step _ 2 (.inr ?_)
  refine step _ 1 (.inr ?_)
  refine step _ 0 (.inl ?_)
  omega

theorem decimal_noNul (n : Nat) : NoNul (decimal n) := by
  intro b hb h
  have := decimal_digits n b hb
  unfold IsDigit at this
  subst h
  simp at this

theorem porttostr_ok (buf : Bytes) (hi lo : Byte) (hb : PORTTOSTR_LEN ≤ buf.length) :
    porttostr buf hi lo = .ok (decimal (hi.toNat * 256 + lo.toNat) ++
      (List.replicate (PORTTOSTR_LEN - (decimal (hi.toNat * 256 + lo.toNat)).length) 0 ++
        buf.drop PORTTOSTR_LEN), 0) := by
  have h1 := hi.toNat_lt
  have h2 := lo.toNat_lt
  have hlen := decimal_length_port (hi.toNat * 256 + lo.toNat) (by omega)
  have hP : PORTTOSTR_LEN = 6 := rfl
  unfold porttostr
  simp only [countLoop_eq]
  rw [writeLoop_ok _ _ (by omega)]
  simp only [Out.ok_bind, Out.pure_eq]
  rw [fillLoop_ok _ (PORTTOSTR_LEN - (decimal (hi.toNat * 256 + lo.toNat)).length) _ (by omega)
    (by simp; omega)]
  simp only [Out.ok_bind, List.drop_drop]
  congr 5
  omega

end Num
