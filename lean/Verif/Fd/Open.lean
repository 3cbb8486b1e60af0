import Verif.Fd.Model
/-
Model of socket.c, open_pipe.c, open_read.c and fsyncfile.c: where descriptors come from.
-/
namespace Fd

/-! ### System calls -/

/-- What the kernel picks for a new descriptor: its number, the open file, and the
connection or pipe behind it (socket.c:29, open_pipe.c:23, open_read.c:21). -/
structure New where
  num : Nat
  file : Nat
  id : Nat

/-- The number is free and the open file is a new one (kernel rule for socket.c:29, open_pipe.c:23,
open_read.c:21). -/
def New.Fresh (k : Kern) (a : New) : Prop := k.fds a.num = none ∧ ¬ k.elsewhere a.file ∧ ∀ m fl, k.fds m ≠ some (a.file, fl)

/-- A number gets a descriptor with the flags `fl` on a new open file (kernel side of socket.c:29,
open_pipe.c:23, open_read.c:21). -/
def install (a : New) (fl : BitVec 32) (f : File) (k : Kern) : Kern :=
  { k with
    fds := fun m => if m = a.num then some (a.file, fl) else k.fds m
    files := fun e => if e = a.file then f else k.files e }

/-- socket(2) with AF_INET6, SOCK_STREAM; `Except.error`: it fails (socket.c:29). -/
def socket (r : Except Int New) (s : St) : Int × St :=
  match r with
  | .error e => (-1, { s with errno := e })
  | .ok a => (a.num, { s with k := { install a 0 ⟨.sock a.id, 2⟩ s.k with
      socks := fun j => if j = a.id then ⟨false, false, false⟩ else s.k.socks j } })

/-- pipe(2); the two ends (open_pipe.c:23). -/
def pipe (r : Except Int (New × New)) (s : St) : Option (Int × Int) × St :=
  match r with
  | .error e => (none, { s with errno := e })
  | .ok (a, b) => (some (a.num, b.num),
      { s with k := install b 0 ⟨.wpipe a.id, 1⟩ (install a 0 ⟨.rpipe a.id, 0⟩ s.k) })

/-- O_CLOEXEC of Linux (open_read.c:21). -/
def O_CLOEXEC : BitVec 32 := 524288#32

/-- open(2) with the flags `fl`: O_CLOEXEC becomes a flag of the descriptor, the rest
(here O_RDONLY, O_NONBLOCK) are the status flags (open_read.c:21). -/
def open_ (r : Except Int New) (fl : BitVec 32) (s : St) : Int × St :=
  match r with
  | .error e => (-1, { s with errno := e })
  | .ok a => (a.num, { s with k := install a (if fl &&& O_CLOEXEC = 0 then 0 else 1) ⟨.other, fl &&& ~~~ O_CLOEXEC⟩ s.k })

/-- fcntl(fd, F_SETFD, 1), with its result (socket.c:31, open_pipe.c:25). -/
def setfd1 (fault : Bool) (fd : Int) (s : St) : Int × St :=
  (if (at? s.k fd).isNone || fault then -1 else 0, setfd fault fd 1 s)

/-! ### The code -/

/-- socket.c:24-45 `socket_tcp`. `f1`: F_SETFD fails; `f2`: setsockopt fails; `f3`, `f4`: faults of the closes; `f5`: F_SETFL
fails. Of IPV6_V6ONLY only whether setting it fails is modelled. -/
def socket_tcp (r : Except Int New) (f1 : Bool) (f2 : Option Int) (f3 f4 : Option Int) (f5 : Bool) (s : St) : Int × St :=
  let (n, s) := socket r s
  if n = -1 then (-1, s)                                    -- :30
  else
    let (x, s) := setfd1 f1 n s
    if x = -1 then (-1, (close f3 n s).2)                   -- :31-34
    else match f2 with
      | some e => (-1, (close f4 n { s with errno := e }).2) -- :37-40
      | none => (n, fd_blocking_disable f5 n s)             -- :43-44

/-- The bytes of `struct sockaddr_in6` of Linux: family (2), port (2), flow (4), address (16),
scope (4) (socket.c:61-67). -/
def sa6 (family port flow addr scope : Bytes) : Bytes := family ++ port ++ flow ++ addr ++ scope

/-- A 32-bit number in memory (little-endian) (socket.c:66). -/
def le32 (n : Int) : Bytes := (List.range 4).map fun i => UInt8.ofNat ((n % 2 ^ 32).toNat / 256 ^ i % 256)

/-- socket.c:58-68: what connect() gets. AF_INET6 is 10. `ip`, `port`: memory at the two pointers. -/
def socket_connect_addr (ip port : Bytes) (id : Int) : Out Bytes :=
  if ip.length < 16 ∨ port.length < 2 then .ub
  else .ok (sa6 [10, 0] (port.take 2) [0, 0, 0, 0] (ip.take 16) (le32 id))

/-- socket.c:78-91 `socket_connected`. `e`: the error the following read() leaves. -/
def socket_connected (e : Int) (fd : Int) (s : St) : Int × St :=
  match at? s.k fd with
  | none => (0, { s with errno := EBADF })
  | some (d, _) =>
    match (s.k.files d).kind with
    | .sock id => if (s.k.socks id).connected then (1, s) else (0, { s with errno := e })
    | _ => (0, { s with errno := e })

/-- socket.c:100 `socket_shutdown`. -/
def socket_shutdown (f : Option Int) (fd : Int) (s : St) : Int × St := shutdown f fd .wr s

/-- open_pipe.c:21-29 `open_pipe`: result and the two numbers. `f0`…`f3`: the four fcntl calls fail; their results are ignored. -/
def open_pipe (r : Except Int (New × New)) (f0 f1 f2 f3 : Bool) (s : St) : Int × Option (Int × Int) × St :=
  match pipe r s with
  | (none, s) => (-1, none, s)
  | (some (a, b), s) =>
    let s := (setfd1 f0 a s).2
    let s := fd_blocking_disable f1 a s
    let s := (setfd1 f2 b s).2
    let s := fd_blocking_disable f3 b s
    (0, some (a, b), s)

/-- open_read.c:19-23 `open_read` (the version with O_CLOEXEC). O_RDONLY is 0. -/
def open_read (r : Except Int New) (s : St) : Int × St := open_ r (0 ||| O_NONBLOCK ||| O_CLOEXEC) s

/-- fsyncfile.c:21-28. `stat`: fstat()'s answer, whether the file is a regular one; `sync`: fsync()'s result. Second component:
fsync() was called. -/
def fsyncfile (stat : Option Bool) (sync : Int) : Int × Bool :=
  match stat with
  | none => (-1, false)
  | some false => (0, false)
  | some true => (sync, true)

end Fd
