import Verif.TlsMain.Props
import Verif.Tcp.Props
import Verif.SmtpMain.Props
/-
The programs in a row: what it means that one is the program of the other, or its server.
-/
namespace Chain
open Conf.Spec (Opt values last switch)

/-- The environment of a program is that of the process that became it (execvp, main_tlswrapper.c:1359); only the four variables of
the endpoints matter here. -/
def Inherits (q : Jail.Proc) (env : ConnInfo.Env) : Prop := ∀ n ∈ ConnInfo.names, ∀ t, q.env n = some t → ConnInfo.Var env n t

variable {E : Type}

/-- A run of tlswrapper with the command line `args` whose program is `prog`, and what became of the program's process: it is
the process `q` whose input is `rr`. -/
structure Became (w : TlsMain.World E) (emptydir a : Bytes) (args : List Bytes) (opts : List Opt) (prog : List Bytes) (res : TlsMain.Res)
    (q : Jail.Proc) (input : Bytes) : Prop where
  sound : TlsMain.Sound w
  strings : ∀ x ∈ args, NoNul x
  good : Conf.Good w.fs args opts prog
  run : TlsMain.program w emptydir (a :: args) = .ok res
  becomes : ∃ (w1 w2 : Jail.World) (execs : Bool) (env : ConnInfo.Env) (p : Jail.Proc) (revs : List Io.RdEv) (rr : Io.RFd),
    Main.Honest w1 ∧ Main.Honest w2 ∧ rr.src = input ∧
    Main.childMain w.codec w1 w2 execs ⟨(last (c! 'U') opts).isSome, last (c! 'u') opts⟩ env p ⟨TlsMain.given res.trace, revs⟩ =
      some (.ok (.exec q rr))

/-- A run of tlswrapper-tcp. -/
structure TcpRun (w : TcpMain.World) (emptydir a : Bytes) (args : List Bytes) (opts : List Opt) (res : TcpMain.Res) : Prop where
  sound : TcpMain.Sound w
  strings : ∀ x ∈ args, NoNul x
  good : ∃ host port, Cmd.Spec.TcpGood args opts host port
  run : TcpMain.program w emptydir (a :: args) = .ok res

/-- A run of tlswrapper-smtp. -/
structure SmtpRun (w : SmtpMain.World) (emptydir a : Bytes) (args : List Bytes) (opts : List Opt) (res : SmtpMain.Res) : Prop where
  sound : SmtpMain.Sound w
  strings : ∀ x ∈ args, NoNul x
  good : ∃ prog, Cmd.Spec.SmtpGood w.ip6 args opts prog
  run : SmtpMain.program w emptydir (a :: args) = .ok res

end Chain
