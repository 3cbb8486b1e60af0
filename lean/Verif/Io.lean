import Verif.Base
/-
The operating system as seen by the I/O loops. A reading descriptor is the
stream of bytes that will arrive on it plus a schedule of outcomes of the read
calls; a writing descriptor is the bytes accepted so far plus a schedule. Every
theorem quantifies over all streams and schedules. When a schedule is used up,
the call has not returned yet ("blocked").

Trusted about the kernel: read(fd, x, k) with k > 0 stores between 1 and k of
the next bytes of the stream, or returns 0 when the stream has ended, or fails
without consuming anything; write accepts a prefix, or fails without accepting.
-/
namespace Io

/-- Outcome of one read call. `data m`: at most `m + 1` bytes are ready (if the
stream has ended this is end of file) (the calls at readall.c:27-40, timeoutread.c:67, fd.c:36). -/
inductive RdEv where
  | data (m : Nat)
  | eintr
  | eagain
  | err (e : Nat)
  deriving Repr, DecidableEq

/-- A reading descriptor: bytes still to arrive, and the schedule (the argument `fd` of
readall.c:22-42 and timeoutread.c:34-68). -/
structure RFd where
  src : Bytes
  evs : List RdEv
  deriving Repr, DecidableEq

/-- The bytes delivered by `read(fd, x, k)` under outcome `data m` (read(2) as called at
readall.c:27-40 and fd.c:36). -/
def got (src : Bytes) (k m : Nat) : Bytes := src.take (min k (m + 1))

/-- Outcome of one write call. `data m`: up to `m + 1` bytes are accepted.
`zero`: the call returned 0. For EINTR and EAGAIN a `poll` may follow, whose
outcome is given by `p` (the waits at writeall.c:33-37, timeoutwrite.c:45-65). -/
inductive PollEv where
  | ok
  | eintr
  | err
  deriving Repr, DecidableEq

/-- Outcome of one write call (writeall.c:27-43, fd.c:102). -/
inductive WrEv where
  | data (m : Nat)
  | zero
  | eintr (p : PollEv)
  | eagain (p : PollEv)
  | err (e : Nat)
  deriving Repr, DecidableEq

/-- A writing descriptor: bytes accepted so far, and the schedule (the argument `fd` of
writeall.c:23-46 and timeoutwrite.c:34-68). -/
structure WFd where
  out : Bytes
  evs : List WrEv
  deriving Repr, DecidableEq

/-- The bytes accepted by `write(fd, x, k)` under outcome `data m` (write(2) as called at
writeall.c:27-43 and fd.c:102). -/
def put (x : Bytes) (k m : Nat) : Bytes := x.take (min k (m + 1))

end Io
