import Verif.Io
import Verif.Str.Model
/-
Model of buffer.c and the macros of buffer.h, with the default backends
(buffer_read, buffer_write). Results are `none` while a system call has not
returned, and `Out.ub` for an access outside the buffer's storage.
-/
namespace Buffer
open Io

/-- buffer.h:12-13. -/
def INSIZE : Nat := 8192
/-- BUFFER_OUTSIZE, buffer.h:13. -/
def OUTSIZE : Nat := 8192

/-- A buffer used for output: storage `x` (its length is the field `n`), the
number of pending bytes `p`, the descriptor. buffer.h:4-10, buffer.c:26-35. -/
structure OBuf where
  x : Bytes
  p : Nat
  fd : WFd
  deriving Repr, DecidableEq

/-- buffer.c:26-35 `buffer_init` for an output buffer with `n` bytes of storage. -/
def oinit (storage : Bytes) (fd : WFd) : OBuf := ⟨storage, 0, fd⟩

/-- buffer.c:61-72. A return of 0 from write simply loops; EAGAIN is an error. -/
def allwriteLoop : (evs : List WrEv) → (out : Bytes) → (x : Bytes) → Option (Int × WFd)
  | evs, out, [] => some (0, ⟨out, evs⟩)
  | [], _, _ :: _ => none
  | .data m :: evs, out, b :: x =>
    let p := put (b :: x) (min (b :: x).length OUTSIZE) m
    allwriteLoop evs (out ++ p) ((b :: x).drop p.length)
  | .zero :: evs, out, b :: x => allwriteLoop evs out (b :: x)
  | .eintr _ :: evs, out, b :: x => allwriteLoop evs out (b :: x)       -- :66
  | .eagain _ :: evs, out, _ :: _ => some (-1, ⟨out, evs⟩)              -- :67
  | .err _ :: evs, out, _ :: _ => some (-1, ⟨out, evs⟩)

/-- buffer.c:55-73. -/
def allwrite (fd : WFd) (x : Bytes) : Option (Int × WFd) := allwriteLoop fd.evs fd.out x

/-- buffer.c:82-87. -/
def flush (b : OBuf) : Option (Int × OBuf) :=
  match allwrite b.fd (b.x.take b.p) with
  | none => none
  | some (r, fd) => if r < 0 then some (-1, { b with fd := fd }) else some (0, { b with p := 0, fd := fd })

/-- buffer.c:114-117: the tail of `buffer_put`. -/
def putTail (b : OBuf) (x : Bytes) : Out (Option (Int × OBuf)) :=
  if x.length ≥ b.x.length then
    match allwrite b.fd x with
    | none => .ok none
    | some (r, fd) => .ok (some (r, { b with fd := fd }))
  else do
    let st ← copyN b.x b.p x x.length
    return some (0, { b with x := st, p := b.p + x.length })

/-- buffer.c:98-118 with a non-negative length. -/
def bput (b : OBuf) (x : Bytes) : Out (Option (Int × OBuf)) :=
  let n := b.x.length - b.p
  if x.length > n then do
    let st ← copyN b.x b.p x n                                          -- :108
    match flush { b with x := st, p := b.p + n } with                   -- :109-112
    | none => return none
    | some (r, b) => if r = -1 then return some (-1, b) else putTail b (x.drop n)
  else putTail b x

/-- buffer.c:128-134; the argument is the memory of the string. -/
def bputs (b : OBuf) (s : Bytes) : Out (Option (Int × OBuf)) := do
  let n ← Str.str_len s
  bput b (s.take n)

/-- buffer.c:145-153 with a non-negative length. -/
def putflush (b : OBuf) (x : Bytes) : Option (Int × OBuf) :=
  match flush b with
  | none => none
  | some (r, b) =>
    if r = -1 then some (-1, b)
    else
      match allwrite b.fd x with
      | none => none
      | some (r, fd) => some (r, { b with fd := fd })

/-- buffer.c:163-169. -/
def putsflush (b : OBuf) (s : Bytes) : Out (Option (Int × OBuf)) := do
  let n ← Str.str_len s
  return putflush b (s.take n)

/-- buffer.h:28-30 buffer_PUTC. -/
def putc (b : OBuf) (c : Byte) : Out (Option (Int × OBuf)) :=
  if b.x.length ≠ b.p then do
    let st ← wr b.x b.p c
    return some (0, { b with x := st, p := b.p + 1 })
  else bput b [c]

/-- A buffer used for input: storage `x`, `p` bytes available at index `n` (buffer.h:4-10). -/
structure IBuf where
  x : Bytes
  p : Nat
  n : Nat
  fd : RFd
  deriving Repr, DecidableEq

/-- buffer.c:26-35 for an input buffer. -/
def iinit (storage : Bytes) (fd : RFd) : IBuf := ⟨storage, 0, storage.length, fd⟩

/-- buffer.c:189-199 `oneread`: EINTR retries; result (return value, bytes). -/
def onereadLoop (src : Bytes) (xlen : Nat) : List RdEv → Option (Int × Bytes × RFd)
  | [] => none
  | .data m :: evs =>
    let g := got src (min xlen INSIZE) m
    some (g.length, g, ⟨src.drop g.length, evs⟩)
  | .eintr :: evs => onereadLoop src xlen evs
  | .eagain :: evs => some (-1, [], ⟨src, evs⟩)
  | .err _ :: evs => some (-1, [], ⟨src, evs⟩)

/-- buffer.c:189-199. -/
def oneread (fd : RFd) (xlen : Nat) : Option (Int × Bytes × RFd) := onereadLoop fd.src xlen fd.evs

/-- buffer.c:219: `for (i = r - 1; i >= 0; --i) x[n + i] = x[i]`. -/
def moveUp (x : Bytes) (n : Nat) : Nat → Out Bytes
  | 0 => .ok x
  | i + 1 => do
    let b ← rd x i
    match wr x (n + i) b with
    | .ub => .ub
    | .ok x => moveUp x n i

/-- buffer.c:209-221. -/
def feed (b : IBuf) : Out (Option (Int × IBuf)) :=
  if b.p ≠ 0 then .ok (some (b.p, b))
  else
    match oneread b.fd b.n with
    | none => .ok none
    | some (r, g, fd) =>
      if r ≤ 0 then .ok (some (r, { b with fd := fd }))
      else do
        let x ← copyN b.x 0 g g.length                                  -- read stores at x[0..r)
        let n := b.n - g.length
        let x ← if n > 0 then moveUp x n g.length else .ok x            -- :218-219
        return some (r, ⟨x, g.length, n, fd⟩)

/-- `n` bytes of memory from index `i`; outside is undefined (the copies of buffer.c:55-75,
189-250). -/
def slice (x : Bytes) (i n : Nat) : Out Bytes :=
  if i + n ≤ x.length then .ok ((x.drop i).take n) else .ub

/-- buffer.c:232-241: (return value, bytes copied out, buffer). -/
def getthis (b : IBuf) (xlen : Nat) : Out (Int × Bytes × IBuf) := do
  let k := if xlen > b.p then b.p else xlen
  let d ← slice b.x b.n k
  return (k, d, { b with p := b.p - k, n := b.n + k })

/-- buffer.c:252-265 with a non-negative length. -/
def bget (b : IBuf) (xlen : Nat) : Out (Option (Int × Bytes × IBuf)) :=
  if b.p > 0 then do
    let r ← getthis b xlen
    return some r
  else if b.n ≤ xlen then
    match oneread b.fd xlen with
    | none => .ok none
    | some (r, g, fd) => .ok (some (r, g, { b with fd := fd }))
  else do
    match ← feed b with
    | none => return none
    | some (r, b) =>
      if r ≤ 0 then return some (r, [], b)
      else
        let r ← getthis b xlen
        return some r

/-- buffer.h:40-42 buffer_GETC. -/
def getc (b : IBuf) : Out (Option (Int × Bytes × IBuf)) :=
  if b.p > 0 then do
    let c ← rd b.x b.n
    return some (1, [c], { b with p := b.p - 1, n := b.n + 1 })
  else bget b 1

/-- buffer.c:275-288, at most `k` iterations; `none` while not returned. Result:
return value, output buffer, input buffer. buffer.h:37-38 PEEK and SEEK. -/
def copy : (k : Nat) → OBuf → IBuf → Out (Option (Int × OBuf × IBuf))
  | 0, _, _ => .ok none
  | k + 1, bout, bin =>
    match feed bin with
    | .ub => .ub
    | .ok none => .ok none
    | .ok (some (n, bin)) =>
      if n < 0 then .ok (some (-2, bout, bin))
      else if n = 0 then .ok (some (0, bout, bin))
      else
        match slice bin.x bin.n n.toNat with
        | .ub => .ub
        | .ok x =>
          match bput bout x with
          | .ub => .ub
          | .ok none => .ok none
          | .ok (some (r, bout)) =>
            if r = -1 then .ok (some (-3, bout, bin))
            else copy k bout { bin with p := bin.p - n.toNat, n := bin.n + n.toNat }

end Buffer
