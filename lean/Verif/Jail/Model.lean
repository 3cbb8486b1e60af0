import Verif.Base
/-
Model of jail.c on a kernel with Linux's credential rules. Capabilities are all or nothing (`cap`); paths are kept as the
texts given to the system calls. Every system call may also fail on its own account (`Fault`), and setgid()/setuid() may report
success without effect, which is what the code's getgid()/getuid() checks are for.
-/
namespace Jail

/-- The resources of setrlimit() the code touches (jail.c:41-66, 176-205). -/
inductive Res where
  | nofile | nproc | core | as | data
  deriving Repr, DecidableEq

/-- The process as the kernel and the process itself see it (what jail.c:94-247 changes). -/
structure Proc where
  ruid : Nat
  euid : Nat
  suid : Nat
  rgid : Nat
  egid : Nat
  sgid : Nat
  groups : List Nat
  /-- holds the capabilities to change credentials and the root directory -/
  cap : Bool
  cwd : Bytes
  root : Bytes
  /-- soft and hard limit, `none` if the kernel does not support the resource -/
  rlim : Res → Option (Nat × Nat)
  dumpable : Bool
  env : Bytes → Option Bytes
  /-- the limit of alloc(), alloc.c: alloc_limit -/
  allocLimit : Option Nat

/-- What the kernel does about one call beyond its rules (answers to the calls of jail.c:41-247). -/
inductive Fault where
  | none
  /-- fails with errno other than EINVAL -/
  | fail
  /-- fails with EINVAL -/
  | einval
  /-- reports success without effect (setgid and setuid only) -/
  | lie
  deriving Repr, DecidableEq

/-- An entry of the account database (struct passwd, jail.c:113-128). -/
structure Pw where
  name : Bytes
  uid : Nat
  gid : Nat
  home : Bytes
  shell : Bytes
  deriving Repr, DecidableEq

/-- The surroundings of a call of jail() (the arguments of jail.c:94 and the answers to its calls).
-/
structure World where
  pid : Nat
  /-- getpwnam() -/
  passwd : Bytes → Option Pw
  /-- the groups initgroups() installs for a name and a primary group -/
  grouplist : Bytes → Nat → List Nat
  /-- by number of the system call -/
  faults : Nat → Fault

/-- The state-changing calls (jail.c:56, 132, 140-205). -/
inductive Call where
  | setgid (g : Nat)
  | initgroups (name : Bytes) (g : Nat)
  | setgroups (l : List Nat)
  | chdir (d : Bytes)
  | chroot (d : Bytes)
  | setuid (u : Nat)
  | setrlimit (r : Res) (cur max : Nat)
  | setenv (k v : Bytes)
  | prctlDumpable (b : Bool)
  | getrlimit (r : Res)
  deriving Repr, DecidableEq

/-- What a call reports (jail.c:56, 132, 140-205). -/
inductive Ret where
  | ok | failed | einval
  deriving Repr, DecidableEq

/-- The process, the number of system calls made, and their record, latest first (kernel side of
jail.c:94-247). -/
structure K where
  p : Proc
  n : Nat
  log : List (Call × Ret)

/-- setuid(2): a privileged process sets all three ids, and loses its capabilities if one of them
was 0 and none is now; another
may only set the effective id, to its real or saved one (called at jail.c:165). -/
def kSetuid (p : Proc) (u : Nat) : Option Proc :=
  if p.cap then
    some { p with ruid := u, euid := u, suid := u
                  cap := !((p.ruid = 0 ∨ p.euid = 0 ∨ p.suid = 0) ∧ u ≠ 0) }
  else if u = p.ruid ∨ u = p.suid then some { p with euid := u }
  else none

/-- setgid(2): likewise, without effect on capabilities (called at jail.c:132). -/
def kSetgid (p : Proc) (g : Nat) : Option Proc :=
  if p.cap then some { p with rgid := g, egid := g, sgid := g }
  else if g = p.rgid ∨ g = p.sgid then some { p with egid := g }
  else none

/-- setgroups(2) (called at jail.c:145). -/
def kSetgroups (p : Proc) (l : List Nat) : Option Proc := if p.cap then some { p with groups := l } else none

/-- chroot(".") (jail.c:157). -/
def kChroot (p : Proc) : Option Proc := if p.cap then some { p with root := p.cwd } else none

/-- setrlimit(2): lowering only, unless privileged; soft at most hard (called at jail.c:56, 178,
195, 205). -/
def kSetrlimit (p : Proc) (r : Res) (cur max : Nat) : Option Proc :=
  match p.rlim r with
  | none => none
  | some (_, hard) =>
    if cur > max then none
    else if max > hard ∧ p.cap = false then none
    else some { p with rlim := fun x => if x = r then some (cur, max) else p.rlim x }

/-- One system call: the kernel's rule `f`, unless there is a fault; `lies` says whether success
without effect is possible (every call of jail.c:94-247). -/
def call (w : World) (k : K) (c : Call) (lies : Bool) (f : Proc → Option Proc) : Ret × K :=
  let fin (r : Ret) (p : Proc) : Ret × K := (r, ⟨p, k.n + 1, (c, r) :: k.log⟩)
  match w.faults k.n with
  | .fail => fin .failed k.p
  | .einval => fin .einval k.p
  | .lie => if lies then fin .ok k.p else
    match f k.p with
    | some p => fin .ok p
    | none => fin .failed k.p
  | .none =>
    match f k.p with
    | some p => fin .ok p
    | none => fin .failed k.p

/-- setrlimit() and getrlimit() of an unsupported resource report EINVAL (jail.c:45, 56, 178, 195,
205). -/
def callLim (w : World) (k : K) (c : Call) (r : Res) (f : Proc → Option Proc) : Ret × K :=
  if (k.p.rlim r).isNone ∧ w.faults k.n ≠ .fail then (.einval, ⟨k.p, k.n + 1, (c, .einval) :: k.log⟩)
  else call w k c false f

/-- A step: `none` is `goto cleanup` (the control flow of jail.c:94-247). -/
def M (α : Type) := K → Option α × K

/-- Sequencing of statements of jail.c:94-247. -/
def M.pure {α} (a : α) : M α := fun k => (some a, k)
/-- Sequencing of statements of jail.c:94-247. -/
def M.bind {α β} (x : M α) (f : α → M β) : M β := fun k =>
  match x k with
  | (some a, k) => f a k
  | (none, k) => (none, k)
instance : Monad M where
  pure := M.pure
  bind := M.bind

/-- `goto cleanup` with ret = -1 (e.g. jail.c:134). -/
def fail {α} : M α := fun k => (none, k)

/-- `if (call == -1) goto cleanup` (e.g. jail.c:153-160). -/
def must (w : World) (c : Call) (lies : Bool) (f : Proc → Option Proc) : M Unit := fun k =>
  match call w k c lies f with
  | (.ok, k) => (some (), k)
  | (_, k) => (none, k)

/-- getgid(), getuid() (jail.c:132, 165). -/
def look {α} (f : Proc → α) : M α := fun k => (some (f k.p), k)

/-- setrlimit(r, {0, 0}), jail.c:176-183, 193-200, 203-210 -/
def zero (w : World) (r : Res) : M Unit := fun k =>
  match callLim w k (.setrlimit r 0 0) r (fun p => kSetrlimit p r 0 0) with
  | (.ok, k) => (some (), k)
  | (_, k) => (none, k)

/-- jail.c:41-67. -/
def limitMemory (w : World) (r : Res) (limit : Nat) : M Unit := fun k =>
  match callLim w k (.getrlimit r) r some with
  | (.einval, k) => (some (), k)
  | (.failed, k) => (none, k)
  | (.ok, k) =>
    match k.p.rlim r with
    | none => (none, k)
    | some (cur, max) =>
      if cur ≤ limit then (some (), k)
      else
        let max := if max > limit then limit else max
        match callLim w k (.setrlimit r limit max) r (fun p => kSetrlimit p r limit max) with
        | (.ok, k) => (some (), k)
        | (.einval, k) => (some (), k)
        | (.failed, k) => (none, k)

/-- jail.c:225 -/
def datamax : Nat := 134217728

/-- jail.c:109-128: the account found, uid and gid. -/
def target (w : World) (account : Option Bytes) : M (Option Pw × Nat × Nat) :=
  match account with
  | none =>
    let u := 141500000 + w.pid % 1000000000
    pure (none, u, u)
  | some a =>
    match w.passwd a with
    | none => fail
    | some pw => if pw.uid = 0 ∨ pw.gid = 0 then fail else pure (some pw, pw.uid, pw.gid)

/-- setenv() (jail.c:186-189). -/
def setenv (w : World) (k v : Bytes) : M Unit :=
  must w (.setenv k v) false (fun p => some { p with env := fun x => if x = k then some v else p.env x })

/-- `if (b) goto cleanup` (jail.c:132-135, 165-168). -/
def failIf (b : Bool) : M Unit := fun k => if b then (none, k) else (some (), k)

/-- jail.c:132-135 -/
def dropGid (w : World) (gid : Nat) : M Unit := do
  must w (.setgid gid) true (fun p => kSetgid p gid)
  let g ← look Proc.rgid
  failIf (g != gid)

/-- jail.c:138-149 -/
def dropGroups (w : World) (pw : Option Pw) (gid : Nat) : M Unit :=
  match pw with
  | some pw => must w (.initgroups pw.name gid) false (fun p => kSetgroups p (w.grouplist pw.name gid))   -- :139
  | none => must w (.setgroups [gid]) false (fun p => kSetgroups p [gid])                                  -- :145

/-- jail.c:152-162 -/
def enter (w : World) (dir : Option Bytes) : M Unit :=
  match dir with
  | some d => do
    must w (.chdir d) false (fun p => some { p with cwd := d })                    -- :153
    must w (.chroot b!".") false kChroot                                           -- :157
  | none => pure ()

/-- jail.c:165-168 -/
def dropUid (w : World) (uid : Nat) : M Unit := do
  must w (.setuid uid) true (fun p => kSetuid p uid)
  let u ← look Proc.ruid
  failIf (u != uid)

/-- jail.c:176-183, 193-200, 203-210 -/
def limit (w : World) (limits : Bool) (r : Res) : M Unit := if limits then zero w r else pure ()

/-- jail.c:185-190 -/
def environ (w : World) (pw : Option Pw) : M Unit :=
  match pw with
  | some pw => do
    setenv w b!"HOME" pw.home
    setenv w b!"SHELL" pw.shell
    setenv w b!"USER" pw.name
    setenv w b!"LOGNAME" pw.name
  | none => pure ()

/-- jail.c:211-218 -/
def undump (w : World) (limits : Bool) : M Unit :=
  if limits then must w (.prctlDumpable false) false (fun p => some { p with dumpable := false }) else pure ()

/-- jail.c:226 -/
def allocLimit : M Unit := fun k => (some (), { k with p := { k.p with allocLimit := some datamax } })

/-- jail.c:94-247, with all the limits of Linux (RLIMIT_NOFILE, RLIMIT_NPROC, RLIMIT_CORE, RLIMIT_AS, RLIMIT_DATA and
PR_SET_DUMPABLE defined); log output is left out. -/
def body (w : World) (account dir : Option Bytes) (limits : Bool) : M Unit := do
  let t ← target w account
  dropGid w t.2.2
  dropGroups w t.1 t.2.2
  enter w dir
  dropUid w t.2.1
  limit w limits .nofile
  environ w t.1
  limit w limits .nproc
  limit w limits .core
  undump w limits
  allocLimit
  limitMemory w .as datamax                                                        -- :228
  limitMemory w .data datamax                                                      -- :233

/-- jail.c:94-247: whether 0 (true) or -1 is returned, and the process afterwards. -/
def jail (w : World) (account dir : Option Bytes) (limits : Bool) (p : Proc) : Bool × K :=
  match body w account dir limits ⟨p, 0, []⟩ with
  | (some (), k) => (true, k)
  | (none, k) => (false, k)

/-- jail.h:7. -/
def droppriv (w : World) (account : Option Bytes) (p : Proc) : Bool × K := jail w account none false p

end Jail
