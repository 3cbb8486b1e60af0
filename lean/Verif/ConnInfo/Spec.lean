import Verif.Proxy.Spec
import Verif.ConnInfo.Model
/-
What the endpoints of a connection are, independently of connectioninfo.c.
-/
namespace ConnInfo
open Proxy

/-- No text is both an IPv4 and an IPv6 address (the latter contain a colon). -/
def Apart (C : IpCodec) : Prop := ∀ s a b, C.pton4 s = some a → C.pton6 s ≠ some b

/-- Variable `n` has the value `t`: its first entry in the environment. -/
def Var (env : Env) (n t : Bytes) : Prop := ∃ pre post, env = pre ++ (n, t) :: post ∧ ∀ x ∈ pre, x.1 ≠ n

/-- The environment gives the endpoints `e`: all four variables are set, the
addresses are address texts of either family and the ports decimal numbers. -/
structure FromEnv (C : IpCodec) (env : Env) (e : Ends) : Prop where
  lip : ∃ t six, Var env b!"TCPLOCALIP" t ∧ AddrOf C six t e.localip
  lport : ∃ t, Var env b!"TCPLOCALPORT" t ∧ PortOf t e.localport
  rip : ∃ t six, Var env b!"TCPREMOTEIP" t ∧ AddrOf C six t e.remoteip
  rport : ∃ t, Var env b!"TCPREMOTEPORT" t ∧ PortOf t e.remoteport

/-- The answer of the kernel denotes this address and port. -/
inductive Denotes : Sock → Bytes → Byte × Byte → Prop where
  | inet {a p} : Denotes (.inet a p) ([0,0,0,0,0,0,0,0,0,0,255,255] ++ a) p
  | inet6 {a p} : Denotes (.inet6 a p) a p

/-- The socket gives the endpoints `e`. -/
structure FromSock (loc peer : Sock) (e : Ends) : Prop where
  loc : Denotes loc e.localip e.localport
  peer : Denotes peer e.remoteip e.remoteport

/-- sin_addr has 4 bytes, sin6_addr 16. -/
def Sock.Sized : Sock → Prop
  | .inet a _ => a.length = 4
  | .inet6 a _ => a.length = 16
  | _ => True

/-- Values of an environment are C strings. -/
def Strings (env : Env) : Prop := ∀ x ∈ env, NoNul x.2

/-- Both addresses are 16 bytes. -/
def Sized (e : Ends) : Prop := e.localip.length = 16 ∧ e.remoteip.length = 16

end ConnInfo
