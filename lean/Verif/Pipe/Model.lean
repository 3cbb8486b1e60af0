import Verif.Rw.Model
/-
Model of pipe.c.
-/
namespace Pipe
open Io Rw

/-- Conversion of an `unsigned long long` to `long long` (two's complement) (pipe.c:51). -/
def toLL (y : Nat) : Int := if y < 2 ^ 63 then y else (y : Int) - 2 ^ 64

/-- pipe.c:32-35, `n` iterations of `y[i] = x; x >>= 8`. -/
def packLoop : Nat → Nat → Bytes
  | 0, _ => []
  | n + 1, x => UInt8.ofNat x :: packLoop n (x >>> 8)

/-- pipe.c:27-36. -/
def uint64_pack (xll : Int) : Bytes := packLoop 8 (toU64 xll)

/-- pipe.c:50: `for (i = 7; i >= 0; --i) y = (y << 8) | x[i]`, as a right fold
from the last byte to the first; `<<` on 64 bits. -/
def unpackLoop : Bytes → Nat
  | [] => 0
  | b :: x => ((unpackLoop x <<< 8) % 2 ^ 64) ||| b.toNat

/-- pipe.c:46-52, before the final conversion to `long long`. -/
def uint64_unpackU (x : Bytes) : Nat := unpackLoop x

/-- pipe.c:46-52. -/
def uint64_unpack (x : Bytes) : Int := toLL (uint64_unpackU x)

/-- pipe.c:68-80; the payload is the whole of `x`, so `xlen >= 0`. -/
def pipe_write (fd : WFd) (x : Bytes) : Option (Int × WFd) := do
  let (r, fd) ← writeall fd (uint64_pack x.length)
  if r = -1 then some (-1, fd)
  else
    let (r, fd) ← writeall fd x
    if r = -1 then some (-1, fd) else some (0, fd)

/-- pipe.c:92-99, with errno = `e`. -/
def pipe_writeerrno (fd : WFd) (e : Int) : Option (Int × WFd) := do
  let (r, fd) ← writeall fd (uint64_pack (-e))
  if r = -1 then some (-1, fd) else some (0, fd)

/-- pipe.c:121: limit on the sizes a caller may ask for. -/
def LIMIT : Nat := 1048576

/-- pipe.c:117-132 with a non-NULL destination. Result: return value, bytes
stored at the destination, descriptor. -/
def pipe_readall (fd : RFd) (outlen : Nat) : Option (Int × Bytes × RFd) :=
  if outlen > LIMIT then some (-1, [], fd)
  else do
    let (r, num, fd) ← readall fd 8
    if r = -1 then some (-1, [], fd)
    else if uint64_unpackU num ≠ outlen then some (-1, [], fd)        -- :127-128
    else readall fd outlen

/-- pipe.c:151-169 with a non-NULL destination. Result: return value, bytes
stored at the destination, value of *outlen afterwards, descriptor. -/
def pipe_readmax (fd : RFd) (outlen : Nat) : Option (Int × Bytes × Nat × RFd) :=
  if outlen > LIMIT then some (-1, [], outlen, fd)
  else do
    let (r, num, fd) ← readall fd 8
    if r = -1 then some (-1, [], outlen, fd)
    else if uint64_unpackU num > outlen then some (-1, [], outlen, fd) -- :161-162
    else
      let (r, x, fd) ← readall fd (uint64_unpackU num)
      if r = -1 then some (-1, x, outlen, fd)
      else some (0, x, uint64_unpackU num, fd)

/-- Result of `pipe_readalloc` (pipe.c:183-203). -/
inductive Alloc where
  /-- the allocated block with its contents -/
  | block (x : Bytes)
  /-- NULL because of an error frame; errno was set to this value -/
  | remote (errno : Int)
  /-- NULL because reading or allocating failed -/
  | null
  /-- undefined: negation of the most negative `long long` -/
  | ub
  deriving Repr, DecidableEq

/-- pipe.c:183-203. `allocOk` says which allocation requests succeed. The
conversion of `-len` to int in `errno = -len` is the identity for the errno
values the peer sends and otherwise implementation defined; it is not modelled. -/
def pipe_readalloc (allocOk : Nat → Bool) (fd : RFd) : Option (Alloc × RFd) := do
  let (r, num, fd) ← readall fd 8
  if r = -1 then some (.null, fd)
  else
    let len := uint64_unpack num
    if len < 0 then
      if len = llmin then some (.ub, fd) else some (.remote (-len), fd) -- :191-194
    else if allocOk len.toNat = false then some (.null, fd)            -- :196-197
    else
      let (r, x, fd) ← readall fd len
      if r = -1 then some (.null, fd) else some (.block x, fd)

end Pipe
