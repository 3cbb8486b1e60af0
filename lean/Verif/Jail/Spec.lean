import Verif.Jail.Model
/-
What a jailed process is, in terms of the kernel's view of it and of the record of its system calls.
-/
namespace Jail.Spec
open Jail

/-- The identity asked for: the account's, or one derived from the process number. -/
def Identity (w : World) (account : Option Bytes) (uid gid : Nat) : Prop :=
  match account with
  | none => uid = 141500000 + w.pid % 1000000000 ∧ gid = uid
  | some a => ∃ pw, w.passwd a = some pw ∧ uid = pw.uid ∧ gid = pw.gid

/-- The supplementary groups that belong to it. -/
def Groups (w : World) (account : Option Bytes) (gid : Nat) (l : List Nat) : Prop :=
  match account with
  | none => l = [gid]
  | some a => ∃ pw, w.passwd a = some pw ∧ l = w.grouplist pw.name gid

/-- All user and group ids are these, saved and effective ones included. -/
structure Runs (p : Proc) (uid gid : Nat) : Prop where
  ruid : p.ruid = uid
  euid : p.euid = uid
  suid : p.suid = uid
  rgid : p.rgid = gid
  egid : p.egid = gid
  sgid : p.sgid = gid

/-- No files, processes or core dumps, now or later (the hard limits are zero). -/
structure Shut (p : Proc) : Prop where
  nofile : p.rlim .nofile = some (0, 0)
  nproc : p.rlim .nproc = some (0, 0)
  core : p.rlim .core = some (0, 0)
  dumpable : p.dumpable = false

/-- Everything a process can do later with its credentials, root and limits. -/
inductive Later : Proc → Proc → Prop where
  | refl (p) : Later p p
  | setuid {p q r} (u) (h : Later p q) (e : kSetuid q u = some r) : Later p r
  | setgid {p q r} (g) (h : Later p q) (e : kSetgid q g = some r) : Later p r
  | setgroups {p q r} (l) (h : Later p q) (e : kSetgroups q l = some r) : Later p r
  | chdir {p q} (d) (h : Later p q) : Later p { q with cwd := d }
  | chroot {p q r} (h : Later p q) (e : kChroot q = some r) : Later p r
  | setrlimit {p q r} (x a b) (h : Later p q) (e : kSetrlimit q x a b = some r) : Later p r

/-- The calls that change the process, in the order they have to be made, before memory is limited. -/
def order (w : World) (account dir : Option Bytes) (limits : Bool) (uid gid : Nat) : List Call :=
  let pw := account.bind w.passwd
  [.setgid gid] ++
  (match pw with | some pw => [.initgroups pw.name gid] | none => [.setgroups [gid]]) ++
  (match dir with | some d => [.chdir d, .chroot b!"."] | none => []) ++
  [.setuid uid] ++
  (if limits then [.setrlimit .nofile 0 0] else []) ++
  (match pw with
    | some pw => [.setenv b!"HOME" pw.home, .setenv b!"SHELL" pw.shell, .setenv b!"USER" pw.name, .setenv b!"LOGNAME" pw.name]
    | none => []) ++
  (if limits then [.setrlimit .nproc 0 0, .setrlimit .core 0 0, .prctlDumpable false] else [])

/-- Calls about memory limits. -/
def isMemory : Call → Bool
  | .getrlimit .as | .getrlimit .data => true
  | .setrlimit .as _ _ | .setrlimit .data _ _ => true
  | _ => false

end Jail.Spec
