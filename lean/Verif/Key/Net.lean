import Verif.Key.Model
/-
Model of tls_pipe.c: the network process's side of the requests to the key process.

Simplified, once for the whole file:
* The buffers belong to BearSSL, which promises 64 bytes before and 85 + 64 after a
  record: only their contents are modelled, as the bytes returned.
* The parsing of a certificate chain (tls_pubcrt.c) is a parameter.
* Log output is left out, and so are the vtables and the init functions (:236-290,
  :325-372, :409-484), which only install these functions.
-/
namespace Key.Net
open Io Pipe

/-- A native integer of `k` bytes as raw bytes (little-endian) (the `sizeof` arguments of
tls_pipe.c:87-400). -/
def raw : Nat → Nat → Bytes
  | 0, _ => []
  | k + 1, n => UInt8.ofNat n :: raw k (n / 256)

/-- `tls_pipe_tochild`, `tls_pipe_fromchild` (tls_pipe.c:16-17). -/
structure N where
  to : WFd
  fr : RFd
  deriving Repr, DecidableEq

/-- How a piece of code ends: normally, by `goto fail`, not yet, or undefined (the control flow of
tls_pipe.c:31-400). -/
inductive NR (α : Type) where
  | ok (a : α) (n : N)
  | fail (n : N)
  | blocked (n : N)
  | ub (n : N)
  deriving Repr, DecidableEq

/-- Code of the network process (tls_pipe.c:31-400). -/
def M (α : Type) := N → NR α

instance : Monad M where
  pure a := fun n => .ok a n
  bind m f := fun n => match m n with
    | .ok a n => f a n
    | .fail n => .fail n
    | .blocked n => .blocked n
    | .ub n => .ub n

/-- `goto fail` (e.g. tls_pipe.c:87-95, 123-132). -/
def fail {α : Type} : M α := fun n => .fail n

/-- The label `fail:` at the end of a function: the failure is its result (e.g. tls_pipe.c:98-101,
137-140). -/
def orFail {α : Type} (m : M α) : M (Option α) := fun n => match m n with
  | .ok a n => .ok (some a) n
  | .fail n => .ok none n
  | .blocked n => .blocked n
  | .ub n => .ub n

/-- `if (pipe_write(tls_pipe_tochild, x, n) == -1) goto fail;` (e.g. tls_pipe.c:87-91, 123-129). -/
def write (x : Bytes) : M Unit := fun n =>
  match pipe_write n.to x with
  | none => .blocked n
  | some (r, fd) => if r = -1 then .fail { n with to := fd } else .ok () { n with to := fd }

/-- `if (pipe_readall(tls_pipe_fromchild, buf, k) == -1) goto fail;` (tls_pipe.c:227, 312). -/
def readall (k : Nat) : M Bytes := fun n =>
  match pipe_readall n.fr k with
  | none => .blocked n
  | some (r, x, fd) => if r = -1 then .fail { n with fr := fd } else .ok x { n with fr := fd }

/-- `if (pipe_readmax(tls_pipe_fromchild, buf, &max) == -1) goto fail;` What is read
has the length stored in `max` (e.g. tls_pipe.c:95, 132). -/
def readmax (max : Nat) : M Bytes := fun n =>
  match pipe_readmax n.fr max with
  | none => .blocked n
  | some (r, x, _, fd) => if r = -1 then .fail { n with fr := fd } else .ok x { n with fr := fd }

/-- `x = pipe_readalloc(tls_pipe_fromchild, &n); if (!x) goto cleanup;` (tls_pipe.c:44-45). -/
def readalloc (allocOk : Nat → Bool) : M Bytes := fun n =>
  match pipe_readalloc allocOk n.fr with
  | none => .blocked n
  | some (.block x, fd) => .ok x { n with fr := fd }
  | some (.remote _, fd) => .fail { n with fr := fd }
  | some (.null, fd) => .fail { n with fr := fd }
  | some (.ub, fd) => .ub { n with fr := fd }

/-- tls_pipe.c:31-64; `fn` is the name without its NUL, `parse` is
`tls_pubcrt_parse`. -/
def getcert {γ : Type} (allocOk : Nat → Bool) (parse : Bytes → Bytes → Option γ) (fn : Bytes) : M (Option γ) := orFail do
  write (fn ++ [0])                                      -- :41
  let pub ← readalloc allocOk                            -- :44-45
  match parse pub fn with                                -- :48
  | none => fail
  | some c => return c

/-- tls_pipe.c:78-101; none is the return value 0. -/
def mulgen (curve : Nat) : M (Option Bytes) := orFail do
  write []                                               -- :87
  write [UInt8.ofNat curve]                              -- :90
  readmax 133                                            -- :94-95

/-- tls_pipe.c:115-140; none is the return value 0. -/
def dosign (algo : Nat) (data : Bytes) (max : Nat) : M (Option Bytes) := orFail do
  write [UInt8.ofNat algo]                               -- :123 (`algo_id & 0xff`)
  write (raw 8 max)                                      -- :126
  write data                                             -- :129
  readmax max                                            -- :132

/-- tls_pipe.c:154-187; the engine's session fields are parameters. -/
def mul (g sid : Bytes) (version suite : Nat) (cr sr : Bytes) : M (Option Unit) := orFail do
  write g                                                -- :162
  write sid                                              -- :165
  write (raw 2 version)                                  -- :168
  write (raw 2 suite)                                    -- :171
  write cr                                               -- :174
  write sr                                               -- :177

/-- tls_pipe.c:207-234; `label` without its NUL, `rnd` what `randombytes` gives. -/
def prf (len : Nat) (label : Bytes) (seeds : List Bytes) (rnd : Bytes) : M Bytes := do
  let r ← orFail do
    if label ≠ b!"client finished" ∧ label ≠ b!"server finished" then fail   -- :215-217
    else
      match seeds with
      | [seed] => do
        write [0]                                        -- :220 (tls_pipe_PRF)
        write (label ++ [0])                             -- :221
        write (raw 8 seed.length)                        -- :223
        write seed                                       -- :225
        readall len                                      -- :227
      | _ => fail                                        -- :218
  return r.getD rnd                                      -- :231-233

/-- tls_pipe.c:307-314 and :389-399, the same up to the first byte: the request, and
the offset in the answer. -/
def askRecord (op : Byte) (type version : Nat) (data : Bytes) : M Int := do
  write [op]                                             -- :307, :389
  write (raw 4 type)                                     -- :308, :390
  write (raw 4 version)                                  -- :310, :392
  write data                                             -- :311, :394
  let o ← readall 1                                      -- :312, :397
  if schar (o.headD 0) < -64 ∨ schar (o.headD 0) > 64 then fail   -- :314, :399
  else return schar (o.headD 0)

/-- tls_pipe.c:301-323: the offset of the plaintext and the plaintext; none is NULL. -/
def decrypt (type version : Nat) (data : Bytes) : M (Option (Int × Bytes)) := orFail do
  let offset ← askRecord 1 type version data             -- tls_pipe_DECRYPT
  let x ← readmax data.length                            -- :315
  if x.length = 0 then fail                              -- :317
  else return (offset, x)

/-- tls_pipe.c:383-407. -/
def encrypt (type version : Nat) (data : Bytes) : M (Option (Int × Bytes)) := orFail do
  let offset ← askRecord 2 type version data             -- tls_pipe_ENCRYPT
  let x ← readmax (data.length + 85)                     -- :396, :400
  return (offset, x)

/-- Storing `x` at index `pos` of `buf` (tls_pipe.c:311-320, 392-402). -/
def placeAt (buf : Bytes) (pos : Int) (x : Bytes) : Out Bytes :=
  if pos < 0 then .ub else copyN buf pos.toNat x x.length

/-- `if (pipe_readmax(tls_pipe_fromchild, buf + pos, &max) == -1) goto fail;` What arrives
is stored even if the call then fails (tls_pipe.c:311-320, 392-402). -/
def readmaxTo (buf : Bytes) (pos : Int) (max : Nat) : M (Bytes × Bytes) := fun n =>
  match pipe_readmax n.fr max with
  | none => .blocked n
  | some (r, x, _, fd) =>
    match placeAt buf pos x with
    | .ub => .ub { n with fr := fd }
    | .ok buf => if r = -1 then .fail { n with fr := fd } else .ok (x, buf) { n with fr := fd }

/-- A computation without I/O (tls_pipe.c:31-400). -/
def lift {α : Type} (x : Out α) : M α := fun n => match x with
  | .ok a => .ok a n
  | .ub => .ub n

/-- tls_pipe.c:301-323 again, with the memory: the record is at `at_` in BearSSL's buffer
and has `len` bytes. Result: offset, plaintext, buffer. -/
def decryptTo (buf : Bytes) (at_ len : Nat) (type version : Nat) : M (Option (Int × Bytes × Bytes)) := orFail do
  let data ← lift (Ec.readN (buf.drop at_) len)
  let offset ← askRecord 1 type version data
  let (x, buf) ← readmaxTo buf (at_ + offset) len        -- :315
  if x.length = 0 then fail
  else return (offset, x, buf)

/-- tls_pipe.c:383-407 with the memory. -/
def encryptTo (buf : Bytes) (at_ len : Nat) (type version : Nat) : M (Option (Int × Bytes × Bytes)) := orFail do
  let data ← lift (Ec.readN (buf.drop at_) len)
  let offset ← askRecord 2 type version data
  let (x, buf) ← readmaxTo buf (at_ + offset) (len + 85) -- :400
  return (offset, x, buf)

end Key.Net
