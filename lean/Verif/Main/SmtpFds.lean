import Verif.Main.Fds
/-
Model of the descriptors of the two processes of main_tlswrapper_smtp.c:914-952: the SMTP
front end and the mail program it starts. The kernel is that of Verif/Main/Fds.lean.
-/
namespace Main

/-- What a process that calls execvp() hands to the program (main_tlswrapper.c:1359,
main_tlswrapper_smtp.c:945): the entries that are not close-on-exec. -/
def execTable (t : Fds) : Fds :=
  t.map fun
    | some ⟨o, false⟩ => some ⟨o, false⟩
    | _ => none

/-- main_tlswrapper_smtp.c:914: fstat() on both numbers succeeds. -/
def canStarttls (t : Fds) : Bool := (look t 5).isSome && (look t 6).isSome

/-- The start of the front end up to fork(), main_tlswrapper_smtp.c:914-919: `flagstarttls` and the
numbers of the pipes. -/
def smtpBefore : D (Bool × (Nat × Nat) × (Nat × Nat)) := do
  let flag ← fun s => some (canStarttls s.t, s)
  let tochild ← openPipe .tomail
  let fromchild ← openPipe .frommail
  tick
  return (flag, tochild, fromchild)

/-- main_tlswrapper_smtp.c:926-936, the mail program's process. -/
def mailFds (tochild fromchild : Nat × Nat) : D Unit := do
  close tochild.2
  close 0
  dupTo tochild.1 0                                                       -- :928
  setBlocking 0 true
  close fromchild.1
  close 1
  dupTo fromchild.2 1                                                     -- :933
  setBlocking 1 true
  close 5                                                                 -- :936

/-- The mail program's process from the start of the front end to execvp()
(main_tlswrapper_smtp.c:914-945). -/
def mailProgram : D Unit := do
  let (_, tochild, fromchild) ← smtpBefore
  mailFds tochild fromchild

/-- main_tlswrapper_smtp.c:949-952, the front end after fork(). -/
def frontFds (tochild fromchild : Nat × Nat) : D Unit := do
  close fromchild.2
  close tochild.1
  setBlocking fromchild.1 true
  setBlocking tochild.2 true

/-- The front end from its start to the initialisation of its buffers
(main_tlswrapper_smtp.c:914-954): `flagstarttls`, the number it writes to the mail program at,
and the number it reads from. -/
def frontEnd : D (Bool × Nat × Nat) := do
  let (flag, tochild, fromchild) ← smtpBefore
  frontFds tochild fromchild
  return (flag, tochild.2, fromchild.1)

end Main
