import Verif.Pipe.Model
import Verif.Path.Model
import Verif.Jail.Model
import Verif.ConnInfo.Model
/-
Model of the program's process between fork() and execvp(), main_tlswrapper.c:1334-1361,
and of the record that decides its account, main_tlswrapper.c:541-570.
Descriptors are in Verif/Main/Fds.lean. Logging and signal dispositions are left out.
-/
namespace Main
open Io Pipe Proxy

/-- The options that matter here: -U given, and the account of -u (main_tlswrapper.c:1338-1353). -/
structure Opts where
  userfromcert : Bool
  user : Option Bytes
  deriving Repr, DecidableEq

/-- What becomes of the process: it ends with a code, or the program starts: with
these credentials, this environment, and what is left to read on its standard
input (main_tlswrapper.c:1338-1362). -/
inductive Fate where
  | exit (code : Nat)
  | exec (p : Jail.Proc) (stdin : RFd)

/-- main_tlswrapper.c:1347: account[accountlen - 1] = 0, then the text as a C string. -/
def accountText (rec : Bytes) : Out Bytes := do
  let m ← wr rec (rec.length - 1) 0
  cstrOf m

/-- jail_droppriv(account) == -1 → die_droppriv (main_tlswrapper.c:1349, 1353). -/
def dropTo (w : Jail.World) (account : Bytes) (p : Jail.Proc) : Option Jail.Proc :=
  match Jail.droppriv w (some account) p with
  | (true, k) => some k.p
  | (false, _) => none

/-- main_tlswrapper.c:1353: `-u`. -/
def dropUser (w : Jail.World) (o : Opts) (p : Jail.Proc) : Option Jail.Proc :=
  match o.user with
  | none => some p
  | some u => dropTo w u p

/-- main_tlswrapper.c:1346-1349: what the record does; `none` is die. -/
def dropCert (w : Jail.World) (o : Opts) (rec : Bytes) (p : Jail.Proc) : Out (Option Jail.Proc) :=
  if rec.length ≤ 1 then .ok (some p)                                     -- :1346
  else do
    let a ← accountText rec                                               -- :1347
    if o.userfromcert = false then return some p                          -- :1348
    else return dropTo w a p                                              -- :1349

/-- main_tlswrapper.c:1346-1361. `w1`, `w2`: the surroundings of the two calls of
jail_droppriv. `execs`: execvp does not return. -/
def become (w1 w2 : Jail.World) (execs : Bool) (o : Opts) (rec : Bytes) (p : Jail.Proc) (stdin : RFd) : Out Fate := do
  match ← dropCert w1 o rec p with
  | none => return .exit 111
  | some p =>
    match dropUser w2 o p with
    | none => return .exit 111
    | some p => if execs then return .exec p stdin else return .exit 111    -- :1359-1361

/-- main_tlswrapper.c:1342-1345: the account record, at most 256 bytes. `none`: still
waiting. -/
def readAccount (w1 w2 : Jail.World) (execs : Bool) (o : Opts) (p : Jail.Proc) (fd : RFd) : Option (Out Fate) :=
  match pipe_readmax fd 256 with
  | none => none
  | some (r, rec, _, fd) => if r = -1 then some (.ok (.exit 111)) else some (become w1 w2 execs o rec p fd)

/-- The environment as a function of the variable's name (the environment of
main_tlswrapper.c:1338-1359). -/
def envFun (env : ConnInfo.Env) : Bytes → Option Bytes := fun n => (env.find? (fun e => e.1 == n)).map (·.2)

/-- main_tlswrapper.c:1339: connectioninfo_set, all of whose setenv calls succeed (their
failure is not noticed by the code, see ConnInfo.c65_set). -/
def exportEnds (C : IpCodec) (env : ConnInfo.Env) (e : Ends) (p : Jail.Proc) : Out Jail.Proc := do
  let env ← ConnInfo.set C (List.replicate 6 0) true true true true env e
  return { p with env := envFun env }

/-- A two-byte port (main_tlswrapper.c:1463, 1465). -/
def portOf (b : Bytes) : Byte × Byte := (b.getD 0 0, b.getD 1 0)

/-- `if (pipe_readall(0, x, n) == -1) die(111)`, four times (main_tlswrapper.c:1335-1338).
The outer `none` is: still waiting; `some none` is die(111). -/
def readEnds (fd : RFd) : Option (Option (Ends × RFd)) :=
  match pipe_readall fd 16 with
  | none => none
  | some (r, lip, fd) =>
    if r = -1 then some none else
    match pipe_readall fd 2 with
    | none => none
    | some (r, lport, fd) =>
      if r = -1 then some none else
      match pipe_readall fd 16 with
      | none => none
      | some (r, rip, fd) =>
        if r = -1 then some none else
        match pipe_readall fd 2 with
        | none => none
        | some (r, rport, fd) =>
          if r = -1 then some none else some (some (⟨lip, portOf lport, rip, portOf rport⟩, fd))

/-- main_tlswrapper.c:1334-1361, the whole. -/
def childMain (C : IpCodec) (w1 w2 : Jail.World) (execs : Bool) (o : Opts) (env : ConnInfo.Env) (p : Jail.Proc) (fd : RFd) :
    Option (Out Fate) :=
  match readEnds fd with
  | none => none
  | some none => some (.ok (.exit 111))
  | some (some (e, fd)) =>
    match exportEnds C env e p with
    | .ub => some .ub
    | .ok p => readAccount w1 w2 execs o p fd

/-- The result of the TLS library's search for the certificate's field: its status, 1
found, 0 not found, -1 found but not usable (BearSSL, br_name_element) (read at
main_tlswrapper.c:540-575). -/
abbrev Status := Int

/-- main_tlswrapper.c:561-568, the text of the record: `none` is die_extractcn; `buf` is
clientcrtbuf. -/
def reported (userfromcert : Bool) (status : Status) (buf : Bytes) : Out (Option Bytes) := do
  let buf ← wr buf 255 0                                                  -- :561
  if userfromcert then
    if status = 0 then return none                                        -- :563
    else
      let buf ← Path.fixname buf                                          -- :566
      let s ← cstrOf buf
      return some s
  else
    let s ← cstrOf buf
    return some s

/-- main_tlswrapper.c:541-542: the record is the text with its NUL. -/
def record (s : Bytes) : Bytes := s ++ [0]

end Main
