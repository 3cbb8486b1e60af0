import Verif.Base
/-
Model of jail_poll.c. A descriptor set is its array of FD_SETSIZE bits; setting or testing a bit outside it is undefined.
Of the event masks only POLLIN and POLLOUT are kept, the ones the code looks at.
-/
namespace JailPoll

/-- FD_SETSIZE (jail_poll.c:56, 79). -/
def setSize : Nat := 1024

/-- struct pollfd (jail_poll.c:37). -/
structure Entry where
  fd : Int
  /-- events & POLLIN, events & POLLOUT -/
  wantIn : Bool
  wantOut : Bool
  /-- revents & POLLIN, revents & POLLOUT -/
  gotIn : Bool
  gotOut : Bool
  deriving Repr, DecidableEq

/-- `fd_set`, jail_poll.c:38, 49-50. -/
abbrev Set := List Bool

/-- FD_ZERO (jail_poll.c:49-50). -/
def emptySet : Set := List.replicate setSize false

/-- FD_SET (jail_poll.c:62-63). -/
def fdSet (s : Set) (fd : Nat) : Out Set := if fd < s.length then .ok (s.set fd true) else .ub

/-- FD_ISSET (jail_poll.c:87, 93). -/
def fdIsset (s : Set) (fd : Nat) : Out Bool :=
  match s[fd]? with
  | some b => .ok b
  | none => .ub

/-- jail_poll.c:62-63 -/
def fdSetIf (b : Bool) (s : Set) (fd : Nat) : Out Set := if b then fdSet s fd else .ok s

/-- jail_poll.c:86-87, 92-93 -/
def fdIssetIf (b : Bool) (s : Set) (fd : Nat) : Out Bool := if b then fdIsset s fd else .ok false

/-- struct timeval (jail_poll.c:40, 67-69). -/
structure Time where
  sec : Int
  usec : Int
  deriving Repr, DecidableEq

/-- The arguments of select() (jail_poll.c:72). -/
structure Query where
  nfds : Nat
  r : Set
  w : Set
  timeout : Option Time
  deriving Repr, DecidableEq

/-- What select() returns and leaves in the sets (jail_poll.c:72-74). -/
structure Answer where
  ret : Int
  r : Set
  w : Set
  deriving Repr, DecidableEq

/-- jail_poll.c:52-64, the entries left: `none` is the refusal of a descriptor outside the set. -/
def prepare : List Entry → Nat → Set → Set → Out (Option (Nat × Set × Set))
  | [], nfds, r, w => .ok (some (nfds, r, w))
  | x :: xs, nfds, r, w =>
    if x.fd < 0 then prepare xs nfds r w
    else if x.fd ≥ setSize then .ok none
    else do
      let fd := x.fd.toNat
      let nfds := if fd ≥ nfds then fd + 1 else nfds
      let r ← fdSetIf x.wantIn r fd
      let w ← fdSetIf x.wantOut w fd
      prepare xs nfds r w

/-- jail_poll.c:66-70. -/
def timeoutOf (millisecs : Int) : Option Time :=
  if millisecs ≥ 0 then some ⟨millisecs / 1000, 1000 * (millisecs % 1000)⟩ else none

/-- jail_poll.c:77-99: one entry; `none` is the refusal, otherwise the flags set. -/
def collect1 (a : Answer) (x : Entry) : Out (Option (Int × Entry)) :=
  if x.fd < 0 then .ok (some (0, x))
  else if x.fd ≥ setSize then .ok none
  else do
    let fd := x.fd.toNat
    let i ← fdIssetIf x.wantIn a.r fd
    let o ← fdIssetIf x.wantOut a.w fd
    return some ((if i then 1 else 0) + (if o then 1 else 0), { x with gotIn := x.gotIn || i, gotOut := x.gotOut || o })

/-- jail_poll.c:75-100: the entries left; the count `n` so far. -/
def collect (a : Answer) : List Entry → Int → Out (Int × List Entry)
  | [], n => .ok (n, [])
  | x :: xs, n => do
    match ← collect1 a x with
    | none => return (-1, x :: xs)
    | some (c, x) =>
      let (n, xs) ← collect a xs (n + c)
      return (n, x :: xs)

/-- jail_poll.c:37-104, with `select` as the kernel's answer; log output is left out. -/
def jailPoll (select : Query → Answer) (x : List Entry) (millisecs : Int) : Out (Int × List Entry) := do
  let x := x.map (fun e => { e with gotIn := false, gotOut := false })          -- :47
  match ← prepare x 1 emptySet emptySet with
  | none => return (-1, x)                                                      -- :56-60
  | some (nfds, r, w) =>
    let a := select ⟨nfds, r, w, timeoutOf millisecs⟩                           -- :72
    if a.ret ≤ 0 then return (a.ret, x)                                         -- :73
    else collect a x 0

end JailPoll
