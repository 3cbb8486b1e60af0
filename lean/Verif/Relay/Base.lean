import Verif.Base
import Verif.Io
/-
What the three relay loops (main_tlswrapper_tcp.c, the cleartext phase and the
encrypted phase of main_tlswrapper.c) have in common: a pending buffer, one
non-blocking read into it, one non-blocking write out of it, and the trace of
externally visible actions.
-/
namespace Relay
open Io

/-- A pending buffer: the storage (`unsigned char x[8192]`) and the number of
valid bytes at its start.
Models main_tlswrapper_tcp.c `inbuf`/`inbuflen`, `outbuf`/`outbuflen` and
main_tlswrapper.c:86-90 `cleartext_tochildbuf`, `cleartext_tonetbuf`. -/
structure Buf where
  mem : Bytes
  len : Nat
  deriving Repr, DecidableEq

/-- The valid bytes of a buffer (main_tlswrapper.c:528-532). -/
def Buf.data (b : Buf) : Bytes := b.mem.take b.len

/-- `memmove(mem + dst, mem + src, n)` (main_tlswrapper.c:530, main_tlswrapper_tcp.c:461, 475). -/
def memmove (mem : Bytes) (dst src n : Nat) : Out Bytes :=
  if dst + n ≤ mem.length ∧ src + n ≤ mem.length then
    .ok (mem.take dst ++ ((mem.drop src).take n ++ mem.drop (dst + n)))
  else .ub

/-- tls.h:207-211 the tls_state_* flags of the TLS engine. -/
structure Flags where
  closed : Bool
  sendrec : Bool
  recvrec : Bool
  sendapp : Bool
  recvapp : Bool
  deriving Repr, DecidableEq

/-- The descriptors of the network process (main_tlswrapper.c:79-84): peerinfd,
peeroutfd, childinfd, childoutfd, childctlfd, childackfd. -/
inductive Fd where
  | peerin | peerout | childin | childout | ctl | ack
  deriving Repr, DecidableEq

/-- One exchange with the TLS engine. `state`: it was asked for its state.
`recvapp off n`: it offered the plaintext `off` and `n` bytes of it were
acknowledged as taken; `sendrec off n`: the same for outgoing records.
`sendapp mem n`: its space for plaintext held `mem` and `n` bytes of it were
acknowledged as filled; `recvrec mem n`: the same for incoming records. `user d`:
the bytes `d` of the account record were written to the child's input. `wait l`: the
loop polls the descriptors `l` (and the signal pipe) (tls_engine.c:26-161 as called from
main_tlswrapper.c:907-1120). -/
inductive EngAct where
  | state (f : Flags)
  | recvapp (off : Bytes) (n : Nat)
  | sendrec (off : Bytes) (n : Nat)
  | sendapp (mem : Bytes) (n : Nat)
  | recvrec (mem : Bytes) (n : Nat)
  | flush
  | close
  | user (d : Bytes)
  | wait (l : List Fd)
  deriving Repr, DecidableEq

/-- One visible action on a descriptor `f`. `ended`: a read returned 0 or failed
for good. `failed`: a write returned 0 or failed for good. `alarm`: the
timer was restarted with the inactivity timeout, or if `brief` with the one
second granted to finish (finishtimeout). `sig c`: the command `c` was taken from the
signal pipe. `eng e`: an exchange with the TLS engine (encrypted phase only) (the calls of
main_tlswrapper.c:658-1120 and main_tlswrapper_tcp.c:378-510). -/
inductive Act (F : Type) where
  | read (f : F) (d : Bytes)
  | ended (f : F)
  | write (f : F) (d : Bytes)
  | failed (f : F)
  | close (f : F)
  | alarm (brief : Bool := false)
  | sig (c : Byte)
  | eng (e : EngAct)
  deriving Repr, DecidableEq

/-- Result of a read as the loops classify it: retry later (EINTR, EAGAIN),
`r <= 0`, or data (main_tlswrapper.c:781-790, 855-864, main_tlswrapper_tcp.c:481-504). -/
inductive RRes where
  | again
  | ended
  | got (d : Bytes)
  deriving Repr, DecidableEq

/-- `r = fd_read(…, buf + buflen, sizeof buf - buflen)` with `size = sizeof buf`,
followed by `buflen += r` when it is positive. fd.c:29-43 makes a single `read`
of the requested length (8192 is below the 1 MiB cap). -/
def readInto (size : Nat) (b : Buf) (src : Bytes) : RdEv → Out (RRes × Buf × Bytes)
  | .data m =>
    let d := got src (size - b.len) m
    if d.length = 0 then .ok (.ended, b, src)
    else do
      let mem ← copyN b.mem b.len d d.length
      return (.got d, ⟨mem, b.len + d.length⟩, src.drop d.length)
  | .eintr => .ok (.again, b, src)
  | .eagain => .ok (.again, b, src)
  | .err _ => .ok (.ended, b, src)

/-- Result of a write as the loops classify it (main_tlswrapper.c:769-775, 843-849,
main_tlswrapper_tcp.c:454-476). -/
inductive WRes where
  | again
  | failed
  | put (d : Bytes)
  deriving Repr, DecidableEq

/-- `memmove(buf, buf + r, buflen - r); buflen -= r;`
main_tlswrapper_tcp.c:462-463 and 476-477, main_tlswrapper.c:528-532
`consume_buffer` (whose early return for 0 is never taken here). -/
def consume (b : Buf) (r : Nat) : Out Buf := do
  let mem ← memmove b.mem 0 r (b.len - r)
  return ⟨mem, b.len - r⟩

/-- `r = fd_write(…, buf, buflen)` followed by consuming the `r` bytes when `r`
is positive (main_tlswrapper.c:769-775, 843-849, main_tlswrapper_tcp.c:454-476). -/
def writeFrom (b : Buf) : WrEv → Out (WRes × Buf)
  | .data m =>
    if b.mem.length < b.len then .ub
    else
      let d := put b.mem b.len m
      if d.length = 0 then .ok (.failed, b)
      else do
        let b ← consume b d.length
        return (.put d, b)
  | .zero => .ok (.failed, b)
  | .eintr _ => .ok (.again, b)
  | .eagain _ => .ok (.again, b)
  | .err _ => .ok (.failed, b)

end Relay
