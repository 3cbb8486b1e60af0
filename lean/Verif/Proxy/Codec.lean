import Verif.Num.Props
import Verif.Proxy.Spec
/-
A concrete address codec that meets `IpCodec.Lawful`: dotted quads for IPv4 and
eight four-digit groups for IPv6. It shows that the assumptions on the C library
are satisfiable, and lets the examples run. It is not a model of the C library.
-/
namespace Proxy
open Num.Spec

/-- Split at every `c` (part of the example codec, models no line of /repo). -/
def splitOn (c : Byte) : Bytes → List Bytes
  | [] => [[]]
  | b :: s =>
    if b = c then [] :: splitOn c s
    else
      match splitOn c s with
      | [] => [[b]]
      | p :: ps => (b :: p) :: ps

theorem splitOn_ne (c : Byte) (s : Bytes) : splitOn c s ≠ [] := by
  cases s with
  | nil => simp [splitOn]
  | cons b s =>
    rw [splitOn]
    split
    · simp
    · split <;> simp

theorem splitOn_free (c : Byte) (p : Bytes) (h : c ∉ p) : splitOn c p = [p] := by
  induction p with
  | nil => rfl
  | cons b p ih =>
    simp only [List.mem_cons, not_or] at h
    rw [splitOn, if_neg (fun e => h.1 e.symm), ih h.2]

theorem splitOn_sep (c : Byte) (p q : Bytes) (h : c ∉ p) : splitOn c (p ++ c :: q) = p :: splitOn c q := by
  induction p with
  | nil => simp [splitOn]
  | cons b p ih =>
    simp only [List.mem_cons, not_or] at h
    rw [List.cons_append, splitOn, if_neg (fun e => h.1 e.symm), ih h.2]

/-- every character is a separator or occurs in a part -/
theorem splitOn_mem (c : Byte) (s : Bytes) (b : Byte) (hb : b ∈ s) : b = c ∨ ∃ p ∈ splitOn c s, b ∈ p := by
  induction s with
  | nil => simp at hb
  | cons a s ih =>
    rw [splitOn]
    by_cases hac : a = c
    · rw [if_pos hac]
      rcases List.mem_cons.mp hb with rfl | hb
      · exact .inl hac
      · rcases ih hb with h | ⟨p, h1, h2⟩
        · exact .inl h
        · exact .inr ⟨p, by simp [h1], h2⟩
    · rw [if_neg hac]
      cases hs : splitOn c s with
      | nil => exact absurd hs (splitOn_ne c s)
      | cons p ps =>
        simp only []
        rcases List.mem_cons.mp hb with rfl | hb
        · exact .inr ⟨b :: p, by simp, by simp⟩
        · rcases ih hb with h | ⟨q, h1, h2⟩
          · exact .inl h
          · rw [hs] at h1
            rcases List.mem_cons.mp h1 with rfl | h1
            · exact .inr ⟨a :: q, by simp, by simp [h2]⟩
            · exact .inr ⟨q, by simp [h1], h2⟩

instance (s : Bytes) : Decidable (Numeral s) :=
  decidable_of_iff (s ≠ [] ∧ (∀ d ∈ s, IsDigit d) ∧ (s.head? = some (c! '0') → s = [c! '0']))
    ⟨fun h => ⟨h.1, h.2.1, h.2.2⟩, fun h => ⟨h.1, h.2, h.3⟩⟩

/-- One decimal octet (part of the example codec, models no line of /repo). -/
def octet (s : Bytes) : Option Byte :=
  if Numeral s ∧ value s ≤ 255 then some (UInt8.ofNat (value s)) else none

/-- Dotted decimal to four bytes (the example codec standing for parseip.c:27, 42 and iptostr.c:14, 18). -/
def cpton4 (s : Bytes) : Option Bytes :=
  match splitOn (c! '.') s with
  | [a, b, c, d] =>
    match octet a, octet b, octet c, octet d with
    | some a, some b, some c, some d => some [a, b, c, d]
    | _, _, _, _ => none
  | _ => none

/-- Four bytes to dotted decimal (the example codec standing for parseip.c:27, 42 and iptostr.c:14, 18). -/
def cntop4 : Bytes → Bytes
  | [a, b, c, d] => decimal a.toNat ++ c! '.' :: (decimal b.toNat ++ c! '.' :: (decimal c.toNat ++ c! '.' ::
      decimal d.toNat))
  | _ => []

theorem octet_decimal (a : Byte) : octet (decimal a.toNat) = some a := by
  unfold octet
  rw [Num.value_decimal, if_pos ⟨Num.numeral_decimal _, by have := a.toNat_lt; omega⟩]
  simp

theorem decimal_nodot (n : Nat) : c! '.' ∉ decimal n := by
  intro h
  have := (Num.numeral_decimal n).digits _ h
  revert this; decide

theorem octet_chars (s : Bytes) (a : Byte) (h : octet s = some a) : ∀ b ∈ s, IpChar b := by
  unfold octet at h
  split at h
  · rename_i hn
    intro b hb
    exact .inl (hn.1.digits b hb)
  · simp at h

/-- hexadecimal digit (part of the example codec, models no line of /repo). -/
def hexd (n : Byte) : Byte := if n < 10 then 48 + n else 87 + n
/-- High digit (the example codec standing for parseip.c:27, 42 and iptostr.c:14, 18). -/
def hexhi (b : Byte) : Byte := hexd (b >>> 4)
/-- Low digit (the example codec standing for parseip.c:27, 42 and iptostr.c:14, 18). -/
def hexlo (b : Byte) : Byte := hexd (b &&& 15)
/-- Value of a digit (the example codec standing for parseip.c:27, 42 and iptostr.c:14, 18). -/
def unhexd (b : Byte) : Option Byte :=
  if 48 ≤ b ∧ b ≤ 57 then some (b - 48) else if 97 ≤ b ∧ b ≤ 102 then some (b - 87) else none
/-- Two digits to a byte (the example codec standing for parseip.c:27, 42 and iptostr.c:14, 18). -/
def unhex (h l : Byte) : Option Byte :=
  match unhexd h, unhexd l with
  | some h, some l => some ((h <<< 4) ||| l)
  | _, _ => none

attribute [local instance] decForallByte in
theorem unhex_hex (b : Byte) : unhex (hexhi b) (hexlo b) = some b := by
  revert b; decide +kernel

attribute [local instance] decForallByte in
theorem unhexd_char (b : Byte) : (unhexd b).isSome = true → IpChar b := by
  revert b; decide +kernel

/-- Sixteen bytes to text without compression (the example codec standing for parseip.c:27, 42 and iptostr.c:14, 18). -/
def cntop6 : Bytes → Bytes
  | [] => []
  | [a] => [hexhi a, hexlo a]
  | [a, b] => [hexhi a, hexlo a, hexhi b, hexlo b]
  | a :: b :: r => hexhi a :: hexlo a :: hexhi b :: hexlo b :: c! ':' :: cntop6 r

/-- The groups of an IPv6 text (the example codec standing for parseip.c:27, 42 and iptostr.c:14, 18). -/
def parse6 : Bytes → Option Bytes
  | [h1, l1, h2, l2] =>
    match unhex h1 l1, unhex h2 l2 with
    | some a, some b => some [a, b]
    | _, _ => none
  | h1 :: l1 :: h2 :: l2 :: c :: r =>
    if c = c! ':' then
      match unhex h1 l1, unhex h2 l2, parse6 r with
      | some a, some b, some r => some (a :: b :: r)
      | _, _, _ => none
    else none
  | _ => none

/-- IPv6 text to sixteen bytes (the example codec standing for parseip.c:27, 42 and iptostr.c:14, 18). -/
def cpton6 (s : Bytes) : Option Bytes :=
  match parse6 s with
  | some a => if a.length = 16 then some a else none
  | none => none

theorem parse6_ntop (n : Nat) (a : Bytes) (h : a.length = 2 * n + 2) : parse6 (cntop6 a) = some a := by
  induction n generalizing a with
  | zero =>
    match a, h with
    | [x, y], _ => simp [cntop6, parse6, unhex_hex]
  | succ n ih =>
    match a, h with
    | x :: y :: z :: r, h =>
      have hr : (z :: r).length = 2 * n + 2 := by simp at h ⊢; omega
      have := ih (z :: r) hr
      rw [cntop6]
      · generalize cntop6 (z :: r) = q at this
        cases q with
        | nil => simp [parse6] at this
        | cons q1 q => simp [parse6, unhex_hex, this]
      · simp

theorem unhex_chars {h l a : Byte} (hh : unhex h l = some a) : IpChar h ∧ IpChar l := by
  unfold unhex at hh
  cases h1 : unhexd h with
  | none => simp [h1] at hh
  | some x =>
    cases h2 : unhexd l with
    | none => simp [h1, h2] at hh
    | some y => exact ⟨unhexd_char h (by simp [h1]), unhexd_char l (by simp [h2])⟩

theorem parse6_chars (s a : Bytes) (h : parse6 s = some a) : ∀ b ∈ s, IpChar b := by
  fun_induction parse6 s generalizing a with
  | case1 h1 l1 h2 l2 x y e1 e2 =>
    intro b hb
    have p1 := unhex_chars e1; have p2 := unhex_chars e2
    simp at hb
    rcases hb with rfl | rfl | rfl | rfl
    · first | exact p1.1 | exact p1.2 | exact p2.1 | exact p2.2
    · first | exact p1.1 | exact p1.2 | exact p2.1 | exact p2.2
    · first | exact p1.1 | exact p1.2 | exact p2.1 | exact p2.2
    · first | exact p1.1 | exact p1.2 | exact p2.1 | exact p2.2
  | case2 => simp at h
  | case3 h1 l1 h2 l2 r x y r' e3 e1 e2 ih =>
    intro b hb
    have p1 := unhex_chars e1; have p2 := unhex_chars e2
    simp only [List.mem_cons] at hb
    rcases hb with rfl | rfl | rfl | rfl | rfl | hb
    · first | exact p1.1 | exact p1.2 | exact p2.1 | exact p2.2
    · first | exact p1.1 | exact p1.2 | exact p2.1 | exact p2.2
    · first | exact p1.1 | exact p1.2 | exact p2.1 | exact p2.2
    · first | exact p1.1 | exact p1.2 | exact p2.1 | exact p2.2
    · exact .inr (.inr (.inr (.inr rfl)))
    · exact ih _ e3 b hb
  | case4 => simp at h
  | case5 => simp at h
  | case6 => simp at h

theorem cntop6_len (n : Nat) (a : Bytes) (h : a.length = 2 * n + 2) : (cntop6 a).length = 5 * n + 4 := by
  induction n generalizing a with
  | zero =>
    match a, h with
    | [x, y], _ => simp [cntop6]
  | succ n ih =>
    match a, h with
    | x :: y :: z :: r, h =>
      have := ih (z :: r) (by simp at h ⊢; omega)
      rw [cntop6]
      · simp [this]; omega
      · simp

/-- The codec (the example codec standing for parseip.c:27, 42 and iptostr.c:14, 18). -/
def cCodec : IpCodec := ⟨cpton4, cpton6, cntop4, cntop6⟩

attribute [local instance] decForallByte in
theorem decimal_byte_len (b : Byte) : (decimal b.toNat).length ≤ 3 := by
  have h := b.toNat_lt
  generalize b.toNat = n at h
  rw [decimal]
  split
  · simp
  · rw [decimal]
    split
    · simp
    · rw [decimal]
      split
      · simp
      · omega

theorem cCodec_lawful : cCodec.Lawful where
  rt4 := by
    intro a h
    match a, h with
    | [a, b, c, d], _ =>
      simp only [cCodec, cntop4, cpton4]
      rw [splitOn_sep _ _ _ (decimal_nodot _), splitOn_sep _ _ _ (decimal_nodot _),
        splitOn_sep _ _ _ (decimal_nodot _), splitOn_free _ _ (decimal_nodot _)]
      simp only [octet_decimal]
  rt6 := by
    intro a h
    simp only [cCodec, cpton6, parse6_ntop 7 a (by omega), h, if_true]
  len4 := by
    intro a h
    match a, h with
    | [a, b, c, d], _ =>
      have h1 := decimal_byte_len a; have h2 := decimal_byte_len b
      have h3 := decimal_byte_len c; have h4 := decimal_byte_len d
      simp [cCodec, cntop4]; omega
  len6 := by
    intro a h
    simp only [cCodec, cntop6_len 7 a (by omega)]; omega
  in4 := by
    intro s a h
    simp only [cCodec, cpton4] at h
    split at h
    · rename_i p q r t hs
      split at h
      · rename_i w x y z e1 e2 e3 e4
        cases h
        refine ⟨rfl, fun b hb => ?_⟩
        rcases splitOn_mem (c! '.') s b hb with rfl | ⟨u, h1, h2⟩
        · exact .inr (.inr (.inr (.inl rfl)))
        · rw [hs] at h1
          simp at h1
          rcases h1 with rfl | rfl | rfl | rfl
          · exact octet_chars _ _ e1 b h2
          · exact octet_chars _ _ e2 b h2
          · exact octet_chars _ _ e3 b h2
          · exact octet_chars _ _ e4 b h2
      · simp at h
    · simp at h
  in6 := by
    intro s a h
    simp only [cCodec, cpton6] at h
    split at h
    · rename_i x hx
      split at h
      · rename_i hl
        cases h
        exact ⟨hl, parse6_chars s _ hx⟩
      · simp at h
    · simp at h

end Proxy
