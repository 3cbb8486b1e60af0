import Verif.SmtpMain.Model
import Verif.Cmd.Spec
import Verif.Resolve.Spec
import Verif.ConnInfo.Spec
import Verif.Smtp.Spec
/-
What a run of tlswrapper-smtp is to look like.
-/
namespace SmtpMain
open Conf.Spec (Opt last)

/-- The actions of the session in a trace. -/
def acts (tr : List Obs) : List Smtp.Act :=
  tr.filterMap (fun o => match o with | .session a => some a | _ => none)

/-- The connections tried: addresses and ports. -/
def tried (tr : List Obs) : List (Bytes × (Byte × Byte)) :=
  tr.filterMap (fun o => match o with | .connect a p => some (a, p) | _ => none)

/-- An address as text. -/
def text (C : Proxy.IpCodec) (ip : Bytes) : Bytes :=
  if [0, 0, 0, 0, 0, 0, 0, 0, 0, 0, 0xff, 0xff] <+: ip then C.ntop4 (ip.drop 12) else C.ntop6 ip

/-- Who the client is: the endpoints `e` are those of the environment or else of the socket. -/
structure Client (w : World) (e : Proxy.Ends) : Prop where
  env : ∀ x, ConnInfo.FromEnv w.codec w.env x → e = x
  sock : (∀ x, ¬ ConnInfo.FromEnv w.codec w.env x) → ∀ x, ConnInfo.FromSock w.loc w.peer x → e = x

/-- How the mail program ended (wait(2)). -/
inductive Death where
  | exited (code : Nat)
  | killed (signal : Nat) (core : Bool)

/-- The exit code to report for it. -/
def Death.owed : Death → Nat
  | .exited c => c
  | .killed _ _ => 111

/-- How the kernel encodes it. -/
inductive Death.Status : Death → Nat → Prop where
  | exited (c : Nat) : c < 256 → Status (.exited c) (c * 256)
  | killed (s : Nat) : 1 ≤ s → s ≤ 126 → Status (.killed s false) s
  | core (s : Nat) : 1 ≤ s → s ≤ 126 → Status (.killed s true) (s + 128)

/-- What waiting for the mail program tells: nothing yet, how it ended, or that there is nothing to
learn. -/
inductive Waited (w : World) : Option (Option Death) → Prop where
  | still : (∀ a ∈ w.wait, a = .eintr) → Waited w none
  | ended (m : Nat) (s : Nat) (l : List Main.Ans) (d : Death) :
      w.wait = List.replicate m .eintr ++ .reaped s :: l → d.Status s → Waited w (some (some d))
  | lost (m : Nat) (l : List Main.Ans) : w.wait = List.replicate m .eintr ++ .failed :: l → Waited w (some none)

/-- The session ended with a QUIT that the mail program has answered and whose answer went to the client. -/
def Quit (as : List Smtp.Act) : Prop :=
  ∃ pre raw r d, as = pre ++ [.line raw, .child (Smtp.Spec.forward raw), .reply r, .client d] ∧ Smtp.Spec.verb raw = .quit

/-- The addresses of a name the program may use: the first eight of the resolver's answer. -/
def Address (w : World) (host a : Bytes) : Prop := ∃ as, w.gai host = .list as ∧ a ∈ Resolve.wanted as 8

/-- The memory and the answers of the C library have their sizes. -/
structure Sound (w : World) : Prop where
  apart : ConnInfo.Apart w.codec
  strings : ConnInfo.Strings w.env
  port0 : w.port0.length = 6
  buf0 : w.buf0.length = 257
  ip0 : w.ip0.length = 129
  gai : ∀ h as, w.gai h = .list as → ∀ a ∈ as, a.Ok
  wait : ∀ s, .reaped s ∈ w.wait → ∃ d : Death, d.Status s

end SmtpMain
