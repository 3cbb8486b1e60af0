import Verif.Base
/-
Model of str.c and case.c. A pointer argument is the memory visible from it;
reading or writing outside is undefined behaviour.
-/
namespace Str

/-- str.c:17-23. -/
def str_len : Bytes → Out Nat
  | [] => .ub
  | b :: m => if b = 0 then .ok 0 else (· + 1) <$> str_len m

/-- str.c:33-41. The result of `t[i] == 0`. -/
def str_start : Bytes → Bytes → Out Bool
  | [], _ => .ub
  | _ :: _, [] => .ub
  | a :: s, b :: t =>
    if a = 0 then .ok (b == 0)
    else if a ≠ b then .ok (b == 0)
    else str_start s t

/-- str.c:52-61; `c` is the searched byte. -/
def str_chr : Bytes → Byte → Out Nat
  | [], _ => .ub
  | b :: m, c =>
    if b = 0 then .ok 0
    else if b = c then .ok 0
    else (· + 1) <$> str_chr m c

/-- str.c:77-79, the loop of `str_rchr`: (final i, final u), `none` being -1. -/
def rchrLoop : Bytes → Byte → (i : Nat) → (u : Option Nat) → Out (Nat × Option Nat)
  | [], _, _, _ => .ub
  | b :: m, c, i, u =>
    if b = 0 then .ok (i, u)
    else rchrLoop m c (i + 1) (if b = c then some i else u)

/-- str.c:72-82. -/
def str_rchr (s : Bytes) (c : Byte) : Out Nat := do
  match ← rchrLoop s c 0 none with
  | (_, some u) => return u
  | (i, none) => return i

/-- str.c:93-102. -/
def str_diff : Bytes → Bytes → Out Int
  | [], _ => .ub
  | _ :: _, [] => .ub
  | a :: s, b :: t =>
    if a = 0 then .ok ((a.toNat : Int) - b.toNat)
    else if a ≠ b then .ok ((a.toNat : Int) - b.toNat)
    else str_diff s t

/-- str.c:115-125; `len` counts down (`len - i` in the code). The byte `t[i]` is
read only when the code reads it. -/
def str_diffn : Bytes → Bytes → (len : Int) → Out Int
  | [], _, _ => .ub
  | a :: s, t, len =>
    if a ≠ 0 ∧ len ≤ 0 then .ok 0
    else
      match t with
      | [] => .ub
      | b :: t =>
        if a = 0 then .ok ((a.toNat : Int) - b.toNat)
        else if a ≠ b then .ok ((a.toNat : Int) - b.toNat)
        else str_diffn s t (len - 1)

/-- str.c:140: `for (i = 0; t[i]; ++i) s[i] = t[i];` then str.c:141 `s[i] = 0`;
returns the destination and `i`. -/
def copyLoop (dst : Bytes) : (i : Nat) → (t : Bytes) → Out (Bytes × Nat)
  | _, [] => .ub
  | i, b :: t =>
    if b = 0 then do
      let dst ← wr dst i 0
      return (dst, i)
    else
      match wr dst i b with
      | .ub => .ub
      | .ok dst => copyLoop dst (i + 1) t

/-- str.c:136-143: the destination afterwards and the return value. -/
def str_copy (dst t : Bytes) : Out (Bytes × Nat) := copyLoop dst 0 t

/-- The folding step repeated in case.c (e.g. :28-32): `x = b - 'A'` as an
unsigned char, then `+ 'a'` if `x <= 'Z' - 'A'`, else `+ 'A'`. -/
def fold (b : Byte) : Byte :=
  let x := b - c! 'A'
  if x ≤ c! 'Z' - c! 'A' then x + c! 'a' else x + c! 'A'

/-- case.c:22-41. A non-positive length compares nothing. -/
def diffbLoop : Bytes → Nat → Bytes → Out Int
  | _, 0, _ => .ok 0
  | [], _ + 1, _ => .ub
  | _ :: _, _ + 1, [] => .ub
  | a :: s, n + 1, b :: t =>
    if fold a ≠ fold b then .ok (((fold a).toNat : Int) - (fold b).toNat)
    else diffbLoop s n t

/-- case.c:22-41. -/
def case_diffb (s : Bytes) (len : Int) (t : Bytes) : Out Int := diffbLoop s len.toNat t

/-- case.c:52-71. -/
def case_diffs : Bytes → Bytes → Out Int
  | [], _ => .ub
  | _ :: _, [] => .ub
  | a :: s, b :: t =>
    if fold a ≠ fold b then .ok (((fold a).toNat : Int) - (fold b).toNat)
    else if fold a = 0 then .ok (((fold a).toNat : Int) - (fold b).toNat)
    else case_diffs s t

/-- case.c:82-102, for `len >= 0`. -/
def case_startb : Bytes → Nat → Bytes → Out Bool
  | _, _, [] => .ub
  | s, n, b :: t =>
    if fold b = 0 then .ok true
    else
      match n with
      | 0 => .ok false
      | n + 1 =>
        match s with
        | [] => .ub
        | a :: s => if fold a ≠ fold b then .ok false else case_startb s n t

/-- case.c:112-130. -/
def case_starts : Bytes → Bytes → Out Bool
  | [], _ => .ub
  | _ :: _, [] => .ub
  | a :: s, b :: t =>
    if fold b = 0 then .ok true
    else if fold a ≠ fold b then .ok false
    else case_starts s t

/-- case.c:147-148: one in-place lowering step on a byte. -/
def lower1 (b : Byte) : Byte :=
  let x := b - c! 'A'
  if x ≤ c! 'Z' - c! 'A' then x + c! 'a' else b

/-- case.c:141-151: the memory afterwards. -/
def case_lowerb : Bytes → Nat → Out Bytes
  | s, 0 => .ok s
  | [], _ + 1 => .ub
  | b :: s, n + 1 => (lower1 b :: ·) <$> case_lowerb s n

/-- case.c:160-169: the memory afterwards. -/
def case_lowers : Bytes → Out Bytes
  | [] => .ub
  | b :: s => if b = 0 then .ok (b :: s) else (lower1 b :: ·) <$> case_lowers s

end Str
