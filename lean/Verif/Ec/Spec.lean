import Verif.Base
/-
What is expected of key exchange on the supported curves, independently of the
model.
-/
namespace Ec.Spec

/-- The number a big-endian byte string stands for. -/
def num (s : Bytes) : Nat := s.foldl (fun a b => 256 * a + b.toNat) 0

/-- A curve: its TLS code point, the length of a scalar, of an encoded public
point and of a shared secret, and for the curves over which the scalar must be a
number below it, the group order (SEC 2, versions of NIST P-256, P-384, P-521). -/
structure Curve where
  id : Nat
  scalar : Nat
  point : Nat
  secret : Nat
  order : Option Nat
  deriving Repr, DecidableEq

def p256 : Curve := ⟨23, 32, 65, 32,
  some 0xffffffff00000000ffffffffffffffffbce6faada7179e84f3b9cac2fc632551⟩
def p384 : Curve := ⟨24, 48, 97, 48,
  some 0xffffffffffffffffffffffffffffffffffffffffffffffffc7634d81f4372ddf581a0db248b0a77aecec196accc52973⟩
def p521 : Curve := ⟨25, 66, 133, 66,
  some 0x1fffffffffffffffffffffffffffffffffffffffffffffffffffffffffffffffffa51868783bf2f966b7fcc0148f709a5d03bb5c9b8899c47aebb6fb71e91386409⟩
def x25519 : Curve := ⟨29, 32, 32, 32, none⟩
def x448 : Curve := ⟨30, 56, 56, 56, none⟩

/-- The curves that are built in; X448 depends on a compile-time option. -/
def curves (withX448 : Bool) : List Curve := [p256, p384, p521, x25519] ++ if withX448 then [x448] else []

/-- A valid secret scalar: of the right length and, where it is taken as a number,
between a quarter of the group order and the order. -/
def Scalar (c : Curve) (s : Bytes) : Prop :=
  s.length = c.scalar ∧ ∀ n, c.order = some n → n ≤ 4 * num s ∧ num s < n
end Ec.Spec
