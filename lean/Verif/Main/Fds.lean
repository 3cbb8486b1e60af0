import Verif.Base
/-
Model of the descriptors of the three processes of main_tlswrapper.c:1286-1422: how the
pipes are made and which end each process keeps. The kernel gives out the lowest free
number (POSIX); every call that takes a number may fail. fcntl() on an open descriptor is taken
to succeed (the code does not look at its result). A descriptor table is a list.
-/
namespace Main

/-- The pipes, main_tlswrapper.c:1299-1302, 1385-1386, 1422; the last two are the pipes of
main_tlswrapper_smtp.c:917-918. -/
inductive Pipes where
  | tochild | fromchild | fromchildcontrol | tochildcontrol | fromkeyjail | tokeyjail | selfpipe
  | tomail | frommail
  deriving Repr, DecidableEq

/-- What a descriptor refers to (the descriptors of main_tlswrapper.c:1299-1423). -/
inductive Obj where
  /-- what the wrapper was started with at this number -/
  | inherited (n : Nat)
  | devnull
  /-- whatever randombytes() keeps open -/
  | random
  | rd (p : Pipes)
  | wr (p : Pipes)
  deriving Repr, DecidableEq

/-- An entry of the descriptor table (main_tlswrapper.c:1299-1423). -/
structure Ent where
  obj : Obj
  cloexec : Bool
  deriving Repr, DecidableEq

/-- A descriptor table (main_tlswrapper.c:1299-1423). -/
abbrev Fds := List (Option Ent)

/-- What is at number `n` (kernel side of main_tlswrapper.c:1299-1423). -/
def look : Fds → Nat → Option Ent
  | [], _ => none
  | e :: _, 0 => e
  | _ :: t, n + 1 => look t n

/-- The lowest free number (dup(2) and pipe(2) as used at main_tlswrapper.c:1299-1402). -/
def lowest : Fds → Nat
  | [] => 0
  | none :: _ => 0
  | some _ :: t => lowest t + 1

/-- A number gets an entry (kernel side of main_tlswrapper.c:1299-1402). -/
def place : Fds → Nat → Option Ent → Fds
  | [], 0, e => [e]
  | [], n + 1, e => none :: place [] n e
  | _ :: t, 0, e => e :: t
  | x :: t, n + 1, e => x :: place t n e

/-- The descriptors of a process, which open files are in blocking mode, and the
kernel's faults by number of the call (state of main_tlswrapper.c:1286-1423). -/
structure S where
  t : Fds
  blocking : Obj → Bool
  n : Nat
  fault : Nat → Bool

/-- A stretch of the program; `none` is die(111) (main_tlswrapper.c:1286-1423). -/
abbrev D (α : Type) := S → Option (α × S)

/-- Sequencing of statements of main_tlswrapper.c:1286-1423. -/
def D.pure {α} (a : α) : D α := fun s => some (a, s)
/-- Sequencing of statements of main_tlswrapper.c:1286-1423. -/
def D.bind {α β} (x : D α) (f : α → D β) : D β := fun s =>
  match x s with
  | none => none
  | some (a, s) => f a s
instance : Monad D where
  pure := D.pure
  bind := D.bind

/-- A call that may fail, and then ends the process (the calls checked by die_pipe, die_fork,
die_dup, main_tlswrapper.c:227-247). -/
def tick : D Unit := fun s => if s.fault s.n then none else some ((), { s with n := s.n + 1 })

/-- close(2); closing a number that is not open is harmless (main_tlswrapper.c:1309-1336,
1393-1404). -/
def close (n : Nat) : D Unit := fun s => some ((), { s with t := place s.t n none })

/-- The lowest free number is taken (main_tlswrapper.c:1299-1302, 1312-1330). -/
def take (e : Ent) : D Nat := fun s => some (lowest s.t, { s with t := place s.t (lowest s.t) (some e) })

/-- fd.c:273-281 and 290-298, fd_blocking_enable/disable: a property of the open file. -/
def setBlocking (n : Nat) (b : Bool) : D Unit := fun s =>
  match look s.t n with
  | none => some ((), s)
  | some e => some ((), { s with blocking := fun o => if o = e.obj then b else s.blocking o })

/-- open_pipe.c:21-29: both ends close-on-exec and non-blocking. -/
def openPipe (p : Pipes) : D (Nat × Nat) := do
  tick
  let r ← take ⟨.rd p, true⟩
  let w ← take ⟨.wr p, true⟩
  setBlocking r false
  setBlocking w false
  return (r, w)

/-- `if (dup(fd) != n) die_dup()`; the copy is not close-on-exec (main_tlswrapper.c:1312, 1317,
1323, 1330, 1400, 1402). -/
def dupTo (fd n : Nat) : D Unit := do
  tick
  let e ← fun s => (look s.t fd).map (·, s)
  let r ← take ⟨e.obj, false⟩
  if r = n then return () else fun _ => none

theorem lowest_free (t : Fds) : look t (lowest t) = none := by
  induction t with
  | nil => rfl
  | cons e t ih => cases e <;> simp [lowest, look, ih]

theorem lowest_least (t : Fds) (n : Nat) (h : n < lowest t) : look t n ≠ none := by
  induction t generalizing n with
  | nil => simp [lowest] at h
  | cons e t ih =>
    cases e with
    | none => simp [lowest] at h
    | some e =>
      cases n with
      | zero => simp [look]
      | succ n => exact ih n (by simp [lowest] at h; omega)

theorem look_place (t : Fds) (n m : Nat) (e : Option Ent) : look (place t n e) m = if m = n then e else look t m := by
  induction n generalizing t m with
  | zero => cases t <;> cases m <;> simp [place, look]
  | succ n ih => cases t <;> cases m <;> simp [place, look, ih]

theorem lowest_lt (t : Fds) (e : Ent) : lowest t < lowest (place t (lowest t) (some e)) := by
  have h := lowest_free (place t (lowest t) (some e))
  rw [look_place] at h
  by_cases h1 : lowest (place t (lowest t) (some e)) = lowest t
  · rw [if_pos h1] at h; cases h
  · rw [if_neg h1] at h
    false_or_by_contra
    exact lowest_least t _ (by omega) h

/-- main_tlswrapper.c:1291-1295: /dev/null is opened until the number is above 6, so
that none of the pipes gets a number up to 6. -/
def guardLoop (s : S) : Option (Unit × S) :=
  if s.fault s.n then none                                                -- :1293
  else
    if 6 < lowest s.t then some ((), { s with n := s.n + 1 })             -- :1294, opened and closed again
    else guardLoop { s with n := s.n + 1, t := place s.t (lowest s.t) (some ⟨.devnull, true⟩) }
termination_by 7 - lowest s.t
decreasing_by
  have := lowest_lt s.t ⟨.devnull, true⟩
  omega

/-- fstat(n) == -1 for a free number (main_tlswrapper.c:1289-1290). -/
def isFree (n : Nat) : D Unit := fun s => if look s.t n = none then some ((), s) else none

/-- main_tlswrapper.c:1286-1296. -/
def guard : Bool → D Unit
  | false => pure ()
  | true => do
    isFree 5                                                              -- :1289
    isFree 6                                                              -- :1290
    guardLoop

/-- The numbers of the pipes (main_tlswrapper.c:1299-1302). -/
structure Ends4 where
  tochild : Nat × Nat
  fromchild : Nat × Nat
  fromctl : Nat × Nat
  toctl : Nat × Nat

/-- main_tlswrapper.c:1286-1303, up to the first fork(). -/
def beforeChild (delayed : Bool) : D Ends4 := do
  guard delayed
  let a ← openPipe .tochild
  let b ← openPipe .fromchild
  let c ← openPipe .fromchildcontrol
  let d ← openPipe .tochildcontrol
  tick
  return ⟨a, b, c, d⟩

/-- `if (ctx.flagdelayedenc) { if (dup(fd) != n) die_dup(); fd_blocking_enable(n); }`
(main_tlswrapper.c:1321-1333). -/
def control : Bool → Nat → Nat → D Unit
  | false, _, _ => pure ()
  | true, fd, n => do
    dupTo fd n
    setBlocking n true

/-- main_tlswrapper.c:1310-1332, the program's process. -/
def childFds (delayed : Bool) (e : Ends4) : D Unit := do
  close e.tochild.2
  close 0
  dupTo e.tochild.1 0                                                     -- :1312
  setBlocking 0 true
  close e.fromchild.1
  close 1
  dupTo e.fromchild.2 1                                                   -- :1317
  setBlocking 1 true
  close e.fromctl.1
  close 5                                                                 -- :1321
  control delayed e.fromctl.2 5
  close e.toctl.2
  close 6                                                                 -- :1328
  control delayed e.toctl.1 6

/-- The program's process from the start of the wrapper to execvp() (main_tlswrapper.c:1286-1359).
-/
def program (delayed : Bool) : D Unit := do
  let e ← beforeChild delayed
  childFds delayed e

/-- What execvp() leaves open (main_tlswrapper.c:1359). -/
def exec (s : S) (n : Nat) : Option Obj :=
  match look s.t n with
  | none => none
  | some e => if e.cloexec then none else some e.obj

/-- main_tlswrapper.c:1363-1376, the wrapper after the first fork(). -/
def afterChild (e : Ends4) : D Unit := do
  close e.fromctl.2
  close e.toctl.1
  close e.fromchild.2
  close e.tochild.1
  setBlocking e.fromctl.1 false
  setBlocking e.toctl.2 false
  setBlocking e.fromchild.1 false
  setBlocking e.tochild.2 false

/-- main_tlswrapper.c:1379-1382: randombytes() may keep a descriptor open. -/
def random : Bool → D Unit
  | false => pure ()
  | true => do
    let _ ← take ⟨.random, true⟩

/-- main_tlswrapper.c:1286-1387, up to the second fork(). -/
def beforeKey (delayed rnd : Bool) : D (Ends4 × (Nat × Nat) × (Nat × Nat)) := do
  let e ← beforeChild delayed
  afterChild e
  random rnd
  let f ← openPipe .fromkeyjail
  let g ← openPipe .tokeyjail
  tick
  return (e, f, g)

/-- main_tlswrapper.c:1393-1404, the key process. -/
def keyFds (e : Ends4) (f g : Nat × Nat) : D Unit := do
  close f.1
  close g.2
  close e.fromctl.1
  close e.toctl.2
  close e.fromchild.1
  close e.tochild.2
  close 0
  dupTo g.1 0                                                             -- :1400
  close 1
  dupTo f.2 1                                                             -- :1402
  setBlocking 0 true
  setBlocking 1 true

/-- The key process from the start of the wrapper to tls_keyjail() (main_tlswrapper.c:1286-1302,
1385-1409). -/
def keyProcess (delayed rnd : Bool) : D Unit := do
  let (e, f, g) ← beforeKey delayed rnd
  keyFds e f g

/-- main_tlswrapper.c:1286-1422, the network process. -/
def netProcess (delayed rnd : Bool) : D Unit := do
  let (_, f, g) ← beforeKey delayed rnd
  close f.2
  close g.1
  setBlocking f.1 true
  setBlocking g.2 true
  let _ ← openPipe .selfpipe

end Main
