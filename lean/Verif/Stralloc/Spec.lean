import Verif.Stralloc.Model
import Verif.Num.Spec
/-
What growable strings are meant to be: byte lists. Programs use any number of
strings, named by numbers.
-/
namespace Stralloc
open Num.Spec

/-- The library calls a program makes (the first argument is the destination). -/
inductive Op where
  | catb (i : Nat) (x : Option Bytes) (xlen : Int)
  | cats (i : Nat) (x : Option Bytes)
  | cat (i j : Nat)
  | copyb (i : Nat) (x : Option Bytes) (xlen : Int)
  | copys (i : Nat) (x : Option Bytes)
  | copy (i j : Nat)
  | append (i : Nat) (b : Byte)
  | zero (i : Nat)
  | catnum0 (i : Nat) (v n : Int)
  | catnum (i : Nat) (v : Int)
  | copynum (i : Nat) (v : Int)
  | free (i : Nat)
  deriving Repr, DecidableEq

def set {α : Type} (f : Nat → α) (i : Nat) (a : α) : Nat → α := fun k => if k = i then a else f k

/-- The C side: run one call on the strings `m`. -/
def exec (m : Nat → SA) (ans : List Bool) (op : Op) : Out (Nat × (Nat → SA) × List Bool) :=
  let up (i : Nat) (r : Out (Nat × SA × List Bool)) : Out (Nat × (Nat → SA) × List Bool) :=
    match r with
    | .ub => .ub
    | .ok (ok, sa, ans) => .ok (ok, set m i sa, ans)
  match op with
  | .catb i x n => up i (Stralloc.catb (m i) x n ans)
  | .cats i x => up i (Stralloc.cats (m i) x ans)
  | .cat i j => up i (if i = j then catSelf (m i) ans else Stralloc.cat (m i) (m j) ans)
  | .copyb i x n => up i (Stralloc.copyb (m i) x n ans)
  | .copys i x => up i (Stralloc.copys (m i) x ans)
  | .copy i j => up i (if i = j then catSelf { m i with len := 0 } ans else Stralloc.copy (m i) (m j) ans)
  | .append i b => up i (Stralloc.append (m i) b ans)
  | .zero i => up i (Stralloc.zero (m i) ans)
  | .catnum0 i v n => up i (Stralloc.catnum0 (m i) v n ans)
  | .catnum i v => up i (Stralloc.catnum (m i) v ans)
  | .copynum i v => up i (Stralloc.copynum (m i) v ans)
  | .free i => .ok (1, set m i (Stralloc.free (m i)), ans)

/-- The contents of a C string: what precedes the first NUL. -/
def cstring (x : Bytes) : Bytes := x.takeWhile (· ≠ 0)

/-- Decimal text of a number, zero-padded to at least `n` digits after the sign. -/
def numText (v n : Int) : Bytes :=
  (if v < 0 then b!"-" else []) ++
    (List.replicate (n.toNat - (decimal v.natAbs).length) (c! '0') ++ decimal v.natAbs)

/-- The same call on byte lists, when it succeeds. -/
def effect (l : Nat → Bytes) : Op → Nat → Bytes
  | .catb i x n => set l i (l i ++ (x.getD []).take n.toNat)
  | .cats i x => set l i (l i ++ cstring (x.getD []))
  | .cat i j => set l i (l i ++ l j)
  | .copyb i x n => set l i ((x.getD []).take n.toNat)
  | .copys i x => set l i (cstring (x.getD []))
  | .copy i j => set l i (l j)
  | .append i b => set l i (l i ++ [b])
  | .zero i => set l i (l i ++ [0])
  | .catnum0 i v n => set l i (l i ++ numText v n)
  | .catnum i v => set l i (l i ++ numText v 0)
  | .copynum i v => set l i (numText v 0)
  | .free i => set l i []

/-- What a call that reports failure leaves behind: appending operations leave the string
as it was, except that a negative number may leave its sign; replacing operations leave it empty
(or with the sign of a negative number). -/
def failEffect (l l' : Nat → Bytes) : Op → Prop
  | .catb _ _ _ | .cats _ _ | .cat _ _ | .append _ _ | .zero _ => l' = l
  | .catnum0 i v _ | .catnum i v => l' = l ∨ (v < 0 ∧ l' = set l i (l i ++ b!"-"))
  | .copyb i _ _ | .copys i _ | .copy i _ => l' = set l i []
  | .copynum i v => l' = set l i [] ∨ (v < 0 ∧ l' = set l i b!"-")
  | .free _ => False

/-- The caller's obligations: source memory is as long as stated and C strings are
terminated; a string is not appended to or copied over itself; sizes stay below 2^62 - 64. -/
def Legal (l : Nat → Bytes) : Op → Prop
  | .catb i x n => n ≤ (x.getD []).length ∧ (l i).length + n < 2 ^ 62 - 64
  | .cats i x => (∀ m, x = some m → (0 : Byte) ∈ m) ∧ (l i).length + (x.getD []).length < 2 ^ 62 - 64
  | .cat i j => i ≠ j ∧ (l i).length + (l j).length < 2 ^ 62 - 64
  | .copyb _ x n => n ≤ (x.getD []).length ∧ n < 2 ^ 62 - 64
  | .copys _ x => (∀ m, x = some m → (0 : Byte) ∈ m) ∧ (x.getD []).length < 2 ^ 62 - 64
  | .copy i j => i ≠ j ∧ (l j).length < 2 ^ 62 - 64
  | .append i _ | .zero i => (l i).length < 2 ^ 62 - 66
  | .catnum0 i v n => IsLL v ∧ (l i).length + 64 + n < 2 ^ 62 - 64 ∧ (l i).length < 2 ^ 61
  | .catnum i v => IsLL v ∧ (l i).length < 2 ^ 61
  | .copynum _ v => IsLL v
  | .free _ => True

/-- The arguments are usable: no NULL source, no negative length. -/
def GoodArgs (l : Nat → Bytes) : Op → Prop
  | .catb _ x n | .copyb _ x n => x ≠ none ∧ 0 ≤ n
  | .cats _ x | .copys _ x => x ≠ none
  | .cat _ j | .copy _ j => l j ≠ []
  | _ => True

/-- The string holds exactly these bytes, within its capacity. -/
def Holds (sa : SA) (l : Bytes) : Prop :=
  (sa = SA.zero ∧ l = []) ∨
  ∃ b, sa.s = some b ∧ b.length = sa.alloc ∧ sa.len = l.length ∧ sa.len < sa.alloc ∧
    sa.alloc < 2 ^ 63 ∧ b.take sa.len = l

/-- One call on byte lists: it succeeds with its effect, or fails. -/
def SpecStep (l : Nat → Bytes) (op : Op) (ok : Nat) (l' : Nat → Bytes) : Prop :=
  (ok = 1 ∧ l' = effect l op) ∨ (ok = 0 ∧ failEffect l l' op)

/-- A sequence of calls on byte lists with the values they return. -/
inductive SpecRun : (Nat → Bytes) → List Op → List Nat → (Nat → Bytes) → Prop where
  | nil (l) : SpecRun l [] [] l
  | cons {l op ok l1 ops oks l2} : SpecStep l op ok l1 → SpecRun l1 ops oks l2 →
      SpecRun l (op :: ops) (ok :: oks) l2

/-- Every call of the sequence is legal, whatever the earlier ones returned. -/
def LegalRun (l : Nat → Bytes) : List Op → Prop
  | [] => True
  | op :: ops => Legal l op ∧ ∀ ok l', SpecStep l op ok l' → LegalRun l' ops

/-- The C side: run a sequence of calls. -/
def execAll (m : Nat → SA) (ans : List Bool) : List Op → Out (List Nat × (Nat → SA) × List Bool)
  | [] => .ok ([], m, ans)
  | op :: ops =>
    match exec m ans op with
    | .ub => .ub
    | .ok (ok, m, ans) =>
      match execAll m ans ops with
      | .ub => .ub
      | .ok (oks, m, ans) => .ok (ok :: oks, m, ans)

end Stralloc
