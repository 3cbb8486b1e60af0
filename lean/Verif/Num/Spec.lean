import Verif.Base
/-
Specification vocabulary for decimal numbers, independent of the code.
-/
namespace Num.Spec

/-- `b` is one of '0'..'9'. -/
def IsDigit (b : Byte) : Prop := 48 ≤ b.toNat ∧ b.toNat ≤ 57

instance (b : Byte) : Decidable (IsDigit b) := by unfold IsDigit; infer_instance

/-- The mathematical value of a string of decimal digits. -/
def value (ds : Bytes) : Nat := ds.foldl (fun a d => 10 * a + (d.toNat - 48)) 0

/-- A decimal numeral without superfluous leading zeros: `0|[1-9][0-9]*`. -/
structure Numeral (ds : Bytes) : Prop where
  nonempty : ds ≠ []
  digits : ∀ d ∈ ds, IsDigit d
  canonical : ds.head? = some (c! '0') → ds = [c! '0']

/-- The text `s` is a signed decimal numeral `[+-]?(0|[1-9][0-9]*)` for `v`. -/
inductive Denotes : Bytes → Int → Prop where
  | plain {ds} : Numeral ds → Denotes ds (value ds)
  | plus {ds} : Numeral ds → Denotes (c! '+' :: ds) (value ds)
  | minus {ds} : Numeral ds → Denotes (c! '-' :: ds) (-(value ds : Int))

/-- The decimal text of a natural number, most significant digit first. -/
def decimal (n : Nat) : Bytes :=
  if n < 10 then [UInt8.ofNat (48 + n)]
  else decimal (n / 10) ++ [UInt8.ofNat (48 + n % 10)]

end Num.Spec
