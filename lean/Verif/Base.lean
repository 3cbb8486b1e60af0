/-
Shared vocabulary of the model: bytes, byte-string literals, undefined
behaviour as an explicit outcome, and memory reads through a pointer.

Nothing in this file models a function of /repo; it fixes the meaning of the C
constructs that the models use.
-/

/-- A byte of memory (`unsigned char`; a `char` holds the same bit pattern) (the element type of
all buffers, e.g. buffer.h:5, stralloc.h:7). -/
abbrev Byte := UInt8
/-- A finite sequence of bytes (the contents of those buffers). -/
abbrev Bytes := List UInt8

/-- `c! 'x'` is the byte value of an ASCII character. -/
macro:max "c!" c:char : term => do
  let n := c.getChar.toNat
  `(($(Lean.quote n) : UInt8))

/-- `b!"text"` is the list of byte values of an ASCII string literal. -/
macro:max "b!" s:str : term => do
  let xs := s.getString.toList.toArray.map fun c => c.toNat
  let ts ← xs.mapM fun n => `(($(Lean.quote n) : UInt8))
  `(([$ts,*] : List UInt8))

/-- Result of a C computation: a value, or undefined behaviour (models no line of its own; every
function of /repo may yield `ub`). -/
inductive Out (α : Type u) : Type u where
  | ok (a : α)
  | ub
  deriving Repr, DecidableEq

namespace Out
/-- Sequencing of statements; models no line of its own. -/
@[inline] def bind {α β} (x : Out α) (f : α → Out β) : Out β :=
  match x with
  | ok a => f a
  | ub => ub
instance : Monad Out where
  pure := Out.ok
  bind := Out.bind
@[simp] theorem pure_eq {α} (a : α) : (pure a : Out α) = ok a := rfl
@[simp] theorem ok_bind {α β} (a : α) (f : α → Out β) : ((ok a : Out α) >>= f) = f a := rfl
@[simp] theorem ub_bind {α β} (f : α → Out β) : ((ub : Out α) >>= f) = ub := rfl
@[simp] theorem map_ok {α β} (a : α) (f : α → β) : (f <$> (ok a : Out α)) = ok (f a) := rfl
@[simp] theorem map_ub {α β} (f : α → β) : (f <$> (ub : Out α)) = ub := rfl
end Out

/-- `mem[i]`: read the byte `i` positions after the pointer whose accessible
memory is `mem`; reading outside is undefined behaviour (`*x` and `x[i]` throughout, e.g.
str.c:17-25, case.c:22-45). -/
def rd (mem : Bytes) (i : Nat) : Out Byte :=
  match mem[i]? with
  | some b => .ok b
  | none => .ub

/-- The numeric value of a byte seen as a signed 8-bit `char`
(x86-64 / System V: `char` is signed) (plain `char` comparisons, e.g. case.c:22-45, str.c:93-108).
-/
def schar (b : Byte) : Int := if b.toNat < 128 then b.toNat else (b.toNat : Int) - 256

/-- Conversion of an integer to `unsigned long long` (the casts at pipe.c:30, parsenum.c:29-108,
log.c:307-345). -/
def toU64 (x : Int) : Nat := (x % (2 ^ 64 : Int)).toNat

/-- The largest `unsigned long long` (bound used with parsenum.c and pipe.c:27-51). -/
def u64max : Nat := 2 ^ 64 - 1
/-- The largest `long long` (bound used with parsenum.c:29-108 and stralloc.c). -/
def llmax : Int := 2 ^ 63 - 1
/-- The smallest `long long` (bound used with parsenum.c:29-108 and log.c:307-345). -/
def llmin : Int := -2 ^ 63

/-- `x` is a value of type `long long` (the parameter type of most functions, e.g. buffer.h:16-35).
-/
def IsLL (x : Int) : Prop := llmin ≤ x ∧ x ≤ llmax

/-- The memory seen through a pointer to the NUL-terminated string `s`,
followed by arbitrary other bytes `rest` (the `const char *` arguments throughout, e.g. str.h,
case.h). -/
def cstr (s rest : Bytes) : Bytes := s ++ 0 :: rest

/-- `s` contains no NUL byte, i.e. it is the contents of a C string (the same arguments, seen as
contents). -/
def NoNul (s : Bytes) : Prop := ∀ b ∈ s, b ≠ 0

instance (s : Bytes) : Decidable (NoNul s) := by unfold NoNul; infer_instance

/-- `buf[i] = b`: writing outside the object is undefined behaviour (stores throughout, e.g.
stralloc.c, buffer.c:98-120). -/
def wr (buf : Bytes) (i : Nat) (b : Byte) : Out Bytes :=
  if i < buf.length then .ok (buf.set i b) else .ub

/-- The contents of the NUL-terminated string stored at the start of `mem`;
undefined when there is no NUL inside the accessible memory. Used where an
external C function receives a string (strings read back from buffers, e.g. the result of
log.c:307-345). -/
def cstrOf : Bytes → Out Bytes
  | [] => .ub
  | b :: m => if b = 0 then .ok [] else (b :: ·) <$> cstrOf m

/-- `for (i = k; i < k + n; ++i) dst[i] = src[i]` starting at index `k` of both
objects (`src` is the memory from index `k` on) (the copying loops, e.g. parsehostport.c:190-195).
-/
def copyN (dst : Bytes) (k : Nat) : Bytes → Nat → Out Bytes
  | _, 0 => .ok dst
  | [], _ + 1 => .ub
  | b :: m, n + 1 => do
    let dst ← wr dst k b
    copyN dst (k + 1) m n

/-- A decidable statement about all 256 byte values is decidable (used as a
local instance where a finite table is checked) (proof support, models no code). -/
@[reducible] def decForallByte (p : Byte → Prop) [DecidablePred p] : Decidable (∀ b : Byte, p b) :=
  decidable_of_iff (∀ n : Fin 256, p (UInt8.ofFin n))
    ⟨fun h b => by have := h b.toFin; simpa using this, fun h n => h _⟩
