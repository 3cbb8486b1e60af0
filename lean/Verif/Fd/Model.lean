import Verif.Fd.Spec
/-
Model of fd.c (socket.c: see Open.lean). Logging is left out: it restores errno (log.c:378, 551).
-/
namespace Fd

/-! ### System calls -/

/-- errno values of Linux (fd.c:164, 182). -/
def EBADF : Int := 9
/-- EAGAIN (fd.c:37, 103). -/
def EAGAIN : Int := 11
/-- EINVAL (fd.c:41, 165). -/
def EINVAL : Int := 22
/-- ENOTSOCK (fd.c:164). -/
def ENOTSOCK : Int := 88
/-- ENOTCONN (fd.c:164). -/
def ENOTCONN : Int := 107

/-- The kernel and errno (what fd.c:162-332 acts on). -/
structure St where
  k : Kern
  errno : Int

/-- SHUT_RD and SHUT_WR (fd.c:217, 257). -/
inductive How where
  | rd
  | wr
  deriving DecidableEq

/-- What is at descriptor number `fd` (kernel side of fd.c:163-331). -/
def at? (k : Kern) (fd : Int) : Option (Nat × BitVec 32) := if fd < 0 then none else k.fds fd.toNat

/-- shutdown(2); `fault` is another reason to fail (fd.c:163). -/
def shutdown (fault : Option Int) (fd : Int) (how : How) (s : St) : Int × St :=
  match at? s.k fd with
  | none => (-1, { s with errno := EBADF })
  | some (d, _) =>
    match (s.k.files d).kind with
    | .sock id =>
      if (s.k.socks id).connected = false then (-1, { s with errno := ENOTCONN })
      else match fault with
        | some e => (-1, { s with errno := e })
        | none =>
          let old := s.k.socks id
          let new : Sock := match how with
            | .rd => { old with shutRd := true }
            | .wr => { old with shutWr := true }
          (0, { s with k := { s.k with socks := fun j => if j = id then new else s.k.socks j } })
    | _ => (-1, { s with errno := ENOTSOCK })

/-- close(2): releases the number even if it reports an error (Linux) (fd.c:181). -/
def close (fault : Option Int) (fd : Int) (s : St) : Int × St :=
  match at? s.k fd with
  | none => (-1, { s with errno := EBADF })
  | some _ =>
    let k := { s.k with fds := fun m => if m = fd.toNat then none else s.k.fds m }
    match fault with
    | some e => (-1, { k := k, errno := e })
    | none => (0, { s with k := k })

/-- fcntl(2) with F_GETFL, F_SETFL, F_GETFD, F_SETFD (fd.c:274, 291). -/
def getfl (fd : Int) (s : St) : Option (BitVec 32) := (at? s.k fd).map fun x => (s.k.files x.1).status
/-- fcntl F_SETFL (fd.c:280, 297). -/
def setfl (fault : Bool) (fd : Int) (v : BitVec 32) (s : St) : St :=
  match at? s.k fd with
  | none => { s with errno := EBADF }
  | some (d, _) => if fault then { s with errno := EINVAL } else
    { s with k := { s.k with files := fun e => if e = d then { s.k.files d with status := v } else s.k.files e } }
/-- fcntl F_GETFD (fd.c:308, 325). -/
def getfd (fd : Int) (s : St) : Option (BitVec 32) := (at? s.k fd).map (·.2)
/-- fcntl F_SETFD (fd.c:314, 331). -/
def setfd (fault : Bool) (fd : Int) (v : BitVec 32) (s : St) : St :=
  match at? s.k fd with
  | none => { s with errno := EBADF }
  | some (d, _) => if fault then { s with errno := EINVAL } else
    { s with k := { s.k with fds := fun m => if m = fd.toNat then some (d, v) else s.k.fds m } }

/-! ### fd.c -/

/-- fd.c:162-170. -/
def tryshutdown (fault : Option Int) (fd : Int) (how : How) (s : St) : Bool × St :=
  let (r, s) := shutdown fault fd how s
  (r = 0, s)

/-- fd.c:180-184. -/
def tryclose (fault : Option Int) (fd : Int) (s : St) : Bool × St :=
  let (r, s) := close fault fd s
  (r = 0, s)

/-- fd.c:200-224. `named`: fdname is not NULL; the slot `none` is the NULL pointer. -/
def fd_close_read (f1 f2 : Option Int) (named : Bool) (slot : Option Int) (s : St) : Option Int × St :=
  if named = false then (slot, { s with errno := EINVAL })             -- :204-208
  else match slot with
  | none => (none, { s with errno := EINVAL })                         -- :209-214
  | some fd =>
    if fd = -1 then (some fd, s)                                       -- :215
    else
      let (_, s1) := tryshutdown f1 fd .rd s                           -- :217
      let (_, s2) := tryclose f2 fd s1                                 -- :220
      (some (-1), { s2 with errno := s.errno })                        -- :222-223

/-- fd.c:240-264. -/
def fd_close_write (f1 f2 : Option Int) (named : Bool) (slot : Option Int) (s : St) : Option Int × St :=
  if named = false then (slot, { s with errno := EINVAL })             -- :244-248
  else match slot with
  | none => (none, { s with errno := EINVAL })                         -- :249-254
  | some fd =>
    if fd = -1 then (some fd, s)                                       -- :255
    else
      let (_, s1) := tryshutdown f1 fd .wr s                           -- :257
      let (_, s2) := tryclose f2 fd s1                                 -- :260
      (some (-1), { s2 with errno := s.errno })                        -- :262-263

/-- O_NONBLOCK and FD_CLOEXEC of Linux (fd.c:280, 297). -/
def O_NONBLOCK : BitVec 32 := 2048#32
/-- FD_CLOEXEC (fd.c:314, 331). -/
def FD_CLOEXEC : BitVec 32 := 1#32

/-- fd.c:273-281. -/
def fd_blocking_enable (fault : Bool) (fd : Int) (s : St) : St :=
  match getfl fd s with
  | none => { s with errno := EBADF }
  | some flags => setfl fault fd (flags &&& ~~~ O_NONBLOCK) s

/-- fd.c:290-298. -/
def fd_blocking_disable (fault : Bool) (fd : Int) (s : St) : St :=
  match getfl fd s with
  | none => { s with errno := EBADF }
  | some flags => setfl fault fd (flags ||| O_NONBLOCK) s

/-- fd.c:307-315. -/
def fd_coe_enable (fault : Bool) (fd : Int) (s : St) : St :=
  match getfd fd s with
  | none => { s with errno := EBADF }
  | some flags => setfd fault fd (flags ||| FD_CLOEXEC) s

/-- fd.c:324-332. -/
def fd_coe_disable (fault : Bool) (fd : Int) (s : St) : St :=
  match getfd fd s with
  | none => { s with errno := EBADF }
  | some flags => setfd fault fd (flags &&& ~~~ FD_CLOEXEC) s

/-! ### One read or write -/

/-- One call of read() or write(): what it returns and the errno it leaves, given the count and
errno before (fd.c:36, 102). -/
abbrev Call := Nat → Int → Int × Int

/-- What fd_read_ and fd_write_ do: result, errno, and the counts of the calls made (fd.c:29-43,
95-109). -/
structure Done where
  r : Int
  errno : Int
  calls : List Nat
  deriving DecidableEq

/-- fd.c:29-43. `ewouldblock` is the system's EWOULDBLOCK. -/
def fd_read_ (ewouldblock : Int) (sys : Call) (buf : Bool) (len : Int) : Done :=
  if buf = false then ⟨-1, EINVAL, []⟩                                 -- :32
  else if len < 0 then ⟨-1, EINVAL, []⟩                                -- :33
  else
    let n := (if len > 1048576 then 1048576 else len).toNat            -- :36
    let (r, e) := sys n 0                                              -- :35-36
    ⟨r, if r = -1 ∧ e = ewouldblock then EAGAIN else e, [n]⟩           -- :37

/-- fd.c:57-82: the same again with the arguments checked. -/
def fd_read (ewouldblock : Int) (sys : Call) (buf : Bool) (len : Int) : Done :=
  if buf = false then ⟨-1, EINVAL, []⟩                                 -- :60-64
  else if len < 0 then ⟨-1, EINVAL, []⟩                                -- :65-69
  else fd_read_ ewouldblock sys buf len                                -- :71-80

/-- fd.c:95-109. -/
def fd_write_ (ewouldblock : Int) (sys : Call) (buf : Bool) (len : Int) : Done :=
  if buf = false then ⟨-1, EINVAL, []⟩
  else if len < 0 then ⟨-1, EINVAL, []⟩
  else
    let n := (if len > 1048576 then 1048576 else len).toNat
    let (r, e) := sys n 0
    ⟨r, if r = -1 ∧ e = ewouldblock then EAGAIN else e, [n]⟩

/-- fd.c:123-149. -/
def fd_write (ewouldblock : Int) (sys : Call) (buf : Bool) (len : Int) : Done :=
  if buf = false then ⟨-1, EINVAL, []⟩
  else if len < 0 then ⟨-1, EINVAL, []⟩
  else fd_write_ ewouldblock sys buf len

end Fd
