import Verif.Buffer.Model
/-
Histories of buffer operations, and what they are supposed to do.
-/
namespace Buffer
open Io

/-- An operation on an output buffer. -/
inductive OOp where
  | put (x : Bytes)
  | puts (s rest : Bytes)        -- a string `s` in memory, with `rest` after its terminator
  | putflush (x : Bytes)
  | putsflush (s rest : Bytes)
  | putc (c : Byte)
  | flush
  deriving Repr, DecidableEq

/-- The bytes an operation adds to the stream. -/
def OOp.payload : OOp → Bytes
  | .put x => x
  | .puts s _ => s
  | .putflush x => x
  | .putsflush s _ => s
  | .putc c => [c]
  | .flush => []

/-- The strings contain no NUL before their terminator. -/
def OOp.ok : OOp → Prop
  | .puts s _ => NoNul s
  | .putsflush s _ => NoNul s
  | _ => True

/-- Whether the operation promises an empty buffer when it succeeds. -/
def OOp.flushes : OOp → Bool
  | .putflush _ => true
  | .putsflush _ _ => true
  | .flush => true
  | _ => false

/-- Run one operation of the model. -/
def OOp.run (b : OBuf) : OOp → Out (Option (Int × OBuf))
  | .put x => bput b x
  | .puts s rest => bputs b (cstr s rest)
  | .putflush x => .ok (Buffer.putflush b x)
  | .putsflush s rest => Buffer.putsflush b (cstr s rest)
  | .putc c => Buffer.putc b c
  | .flush => .ok (Buffer.flush b)

/-- Run operations until one reports an error. -/
def orun : OBuf → List OOp → Out (Option (Int × OBuf))
  | b, [] => .ok (some (0, b))
  | b, o :: os =>
    match o.run b with
    | .ub => .ub
    | .ok none => .ok none
    | .ok (some (r, b)) => if r = 0 then orun b os else .ok (some (r, b))

/-- An operation on an input buffer. `peek k` is feed, PEEK, use of up to `k` of
the available bytes and SEEK over them, as in buffer_copy. -/
inductive IOp where
  | get (k : Nat)
  | getc
  | feed
  | peek (k : Nat)
  deriving Repr, DecidableEq

/-- Whether the caller asks for at least one byte. -/
def IOp.wants : IOp → Bool
  | .get k => k > 0
  | .getc => true
  | .feed => true
  | .peek _ => true

/-- Run one operation: return value, bytes consumed by the caller, new buffer. -/
def IOp.run (b : IBuf) : IOp → Out (Option (Int × Bytes × IBuf))
  | .get k => bget b k
  | .getc => Buffer.getc b
  | .feed => do
    match ← Buffer.feed b with
    | none => return none
    | some (r, b) => return some (r, [], b)
  | .peek k => do
    match ← Buffer.feed b with
    | none => return none
    | some (r, b) =>
      let n := min k r.toNat
      let d ← slice b.x b.n n
      return some (r, d, { b with p := b.p - n, n := b.n + n })

/-- Run operations, collecting what was delivered. -/
def irun : IBuf → List IOp → Out (Option (Bytes × IBuf))
  | b, [] => .ok (some ([], b))
  | b, o :: os =>
    match o.run b with
    | .ub => .ub
    | .ok none => .ok none
    | .ok (some (_, d, b)) =>
      match irun b os with
      | .ub => .ub
      | .ok none => .ok none
      | .ok (some (ds, b)) => .ok (some (d ++ ds, b))

end Buffer
