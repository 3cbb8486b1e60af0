import Verif.Base
/-
Specification of the string helpers on byte lists.
-/
namespace Str.Spec

/-- Three-way comparison of strings: the difference of the first bytes that
differ, an ended string counting as byte 0. -/
def diff : Bytes → Bytes → Int
  | [], [] => 0
  | a :: _, [] => a.toNat
  | [], b :: _ => -(b.toNat : Int)
  | a :: s, b :: t => if a = b then diff s t else (a.toNat : Int) - b.toNat

/-- ASCII lower case of one byte, by the standard table: A-Z become a-z. -/
def lc (b : Byte) : Byte :=
  if 65 ≤ b.toNat ∧ b.toNat ≤ 90 then UInt8.ofNat (b.toNat + 32) else b

/-- ASCII lower case of a string. -/
def lcs (s : Bytes) : Bytes := s.map lc

/-- Where `c` first occurs in `s`, or the length of `s`. -/
def FirstOcc (s : Bytes) (c : Byte) (n : Nat) : Prop :=
  (n < s.length ∧ s[n]? = some c ∨ n = s.length) ∧ ∀ i < n, s[i]? ≠ some c

/-- Where `c` last occurs in `s`, or the length of `s` if it does not occur. -/
def LastOcc (s : Bytes) (c : Byte) (n : Nat) : Prop :=
  (s[n]? = some c ∧ ∀ i, n < i → s[i]? ≠ some c) ∨ (n = s.length ∧ c ∉ s)

end Str.Spec
