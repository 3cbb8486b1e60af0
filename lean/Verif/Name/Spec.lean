import Verif.Base
/-
Specification of host-name text and DNS wire format, independent of the code.
-/
namespace Name.Spec

/-- Letters, digits, hyphen and underscore. -/
def LabelChar (c : Byte) : Prop :=
  (97 ≤ c.toNat ∧ c.toNat ≤ 122) ∨ (65 ≤ c.toNat ∧ c.toNat ≤ 90) ∨
  (48 ≤ c.toNat ∧ c.toNat ≤ 57) ∨ c = c! '-' ∨ c = c! '_'

instance (c : Byte) : Decidable (LabelChar c) := by unfold LabelChar; infer_instance

/-- A valid DNS label. -/
structure Label (l : Bytes) : Prop where
  nonempty : l ≠ []
  short : l.length ≤ 63
  chars : ∀ c ∈ l, LabelChar c
  first : l.head? ≠ some (c! '-')
  last : l.getLast? ≠ some (c! '-')

/-- Labels joined by dots. -/
def joinDots : List Bytes → Bytes
  | [] => []
  | [l] => l
  | l :: ls => l ++ c! '.' :: joinDots ls

/-- `s` is a textual form of the name with labels `ls`: the labels joined by
dots with an optional trailing dot; the root is "" or ".". -/
inductive NameOf : Bytes → List Bytes → Prop where
  | empty : NameOf [] []
  | root : NameOf [c! '.'] []
  | relative {ls} : ls ≠ [] → NameOf (joinDots ls) ls
  | absolute {ls} : ls ≠ [] → NameOf (joinDots ls ++ [c! '.']) ls

/-- One label on the wire: its length, then its bytes. -/
def wireLabel (l : Bytes) : Bytes := UInt8.ofNat l.length :: l

/-- DNS wire format: the labels, then the empty root label. -/
def wire (ls : List Bytes) : Bytes := ls.flatMap wireLabel ++ [0]

/-- A DNS wire-format decoder (fuel = length of the input). -/
def unwire : Nat → Bytes → Option (List Bytes)
  | 0, _ => none
  | _ + 1, [] => none
  | n + 1, k :: w =>
    if k = 0 then some []
    else if w.length < k.toNat then none
    else (w.take k.toNat :: ·) <$> unwire n (w.drop k.toNat)

end Name.Spec
