import Verif.Tcp.Model
import Verif.Cmd.Spec
import Verif.Resolve.Spec
import Verif.ConnInfo.Spec
import Verif.Relay.Spec
/-
What a run of tlswrapper-tcp is to look like.
-/
namespace TcpMain
open Conf.Spec (Opt values last)

/-- The actions of the relay in a trace. -/
def acts (tr : List Obs) : List (Relay.Act Relay.Tcp.Fd) :=
  tr.filterMap (fun o => match o with | .relay a => some a | _ => none)

/-- The bytes sent to the server, received from the client, and so on. -/
def sent (tr : List Obs) : Bytes := Relay.wroteOf .remoteout (acts tr)
def taken (tr : List Obs) : Bytes := Relay.readOf .localin (acts tr)
def returned (tr : List Obs) : Bytes := Relay.wroteOf .localout (acts tr)
def answered (tr : List Obs) : Bytes := Relay.readOf .remotein (acts tr)

/-- The connections tried: addresses and ports. -/
def tried (tr : List Obs) : List (Bytes × (Byte × Byte)) :=
  tr.filterMap (fun o => match o with | .connect a p => some (a, p) | _ => none)

/-- Who the client is and what it has to say: `e` are the endpoints, `rest` the bytes to forward. With
incoming PROXY protocol the first line gives the endpoints and is not forwarded; without, they are those of
the environment or of the socket. -/
inductive Client (w : World) (opts : List Opt) (e : Proxy.Ends) (rest : Bytes) : Prop where
  | announced (L : Bytes) : b!"1" ∈ values (c! 'p') opts → w.client.src = L ++ c! '\n' :: rest → c! '\n' ∉ L →
      Proxy.Loose w.codec L e → Client w opts e rest
  | direct : b!"1" ∉ values (c! 'p') opts → rest = w.client.src →
      (∀ x, ConnInfo.FromEnv w.codec w.env x → e = x) →
      ((∀ x, ¬ ConnInfo.FromEnv w.codec w.env x) → ∀ x, ConnInfo.FromSock w.loc w.peer x → e = x) → Client w opts e rest

/-- The memory and the answers of the C library have their sizes. -/
structure Sound (w : World) : Prop where
  codec : w.codec.Lawful
  apart : ConnInfo.Apart w.codec
  strings : ConnInfo.Strings w.env
  buf0 : w.buf0.length = 257
  ip0 : w.ip0.length = 129
  static : 6 ≤ w.static.length
  imem : w.imem.length = 8192
  omem : w.omem.length = 8192
  gai : ∀ h as, w.gai h = .list as → ∀ a ∈ as, a.Ok

end TcpMain
