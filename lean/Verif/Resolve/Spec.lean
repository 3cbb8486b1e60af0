import Verif.Resolve.Model
/-
Specification for C32-C34.
-/
namespace Resolve

/-- The number written by bytes, most significant first. -/
def value : Bytes → Nat
  | [] => 0
  | b :: r => b.toNat * 256 ^ r.length + value r

/-- All strings of `k` bytes. -/
def draws : Nat → List Bytes
  | 0 => [[]]
  | k + 1 => (List.range 256).flatMap (fun b => (draws k).map (fun r => UInt8.ofNat b :: r))

/-- The number of 32-byte draws for which randommod(n) yields `a`. -/
def preimages (n a : Nat) : Nat := ((draws 32).filter (fun r => randommod n r = .ok a)).length

/-- The 16-byte form of an answer. -/
def Answer.addr : Answer → Option Bytes
  | .v4 a => some ([0, 0, 0, 0, 0, 0, 0, 0, 0, 0, 255, 255] ++ a)
  | .v6 a => some a
  | .other => none

/-- Addresses have their proper size. -/
def Answer.Ok : Answer → Prop
  | .v4 a => a.length = 4
  | .v6 a => a.length = 16
  | .other => True

/-- A 16-byte address is a native IPv6 address. -/
def isV6 (a : Bytes) : Prop := a.take 12 ≠ [0, 0, 0, 0, 0, 0, 0, 0, 0, 0, 255, 255]

instance (a : Bytes) : Decidable (isV6 a) := by unfold isV6; infer_instance

/-- The first `m` addresses returned. -/
def wanted (as : List Answer) (m : Nat) : List Bytes := (as.filterMap Answer.addr).take m

end Resolve
