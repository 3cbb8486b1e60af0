import Verif.TlsMain.Model
import Verif.Conf.Props
import Verif.Path.Spec
import Verif.ConnInfo.Spec
import Verif.Proxy.Spec
import Verif.Relay.TlsProps
import Verif.Session.Spec
/-
What a run of tlswrapper is to look like.
-/
namespace TlsMain
open Conf.Spec (Opt values last switch certs)

variable {E : Type}

/-- The actions of the relay in a trace. -/
def acts (tr : List Obs) : List (Relay.Act Relay.Fd) :=
  tr.filterMap (fun o => match o with | .relay a => some a | _ => none)

/-- The bytes one observation puts into the program's input. -/
def given1 : Obs → Bytes
  | .told d => d
  | .relay (.write .childin d) => d
  | .relay (.eng (.user d)) => d
  | _ => []

/-- Everything put into the program's input, in order. -/
def given (tr : List Obs) : Bytes := tr.flatMap given1

/-- An observation that shows the client's bytes or the program's connection in use. -/
def Obs.Client : Obs → Prop
  | .header _ => True
  | .told _ => True
  | .relay _ => True
  | _ => False

/-- What is to happen, in this order, before anything of the client is touched: the program's process, the key
process, the jail unless it is switched off, and the request for the anchors if -a is given. -/
def plan (w : World E) (emptydir : Bytes) (opts : List Opt) (prog : List Bytes) : List Obs :=
  [.program prog (last (c! 'u') opts) (last (c! 'U') opts).isSome, .keys (certs opts)] ++
  (if w.nojail then [] else [.jailed (last (c! 'j') opts) ((last (c! 'J') opts).getD emptydir)]) ++
  (match (values (c! 'a') opts).head? with
    | none => []
    | some fn => [.anchor (Path.Spec.undot (Path.Spec.collapse fn))])

/-- What has to succeed before anything of the client is touched. -/
structure Ready (w : World E) (opts : List Opt) : Prop where
  pipes : w.pipes = true ∧ w.fork = true ∧ w.keypipes = true ∧ w.keyfork = true ∧ w.selfpipe = true
  free : switch (c! 'n') (c! 'N') false opts = true → w.busy = false ∧ w.devnull = true
  jail : w.nojail = false → w.jail = true
  anchor : ∀ fn, (values (c! 'a') opts).head? = some fn →
    ∃ d, w.anchor (Path.Spec.undot (Path.Spec.collapse fn)) = .pem d ∧ w.parse d = true

/-- Who the client is and what it has to say: `e` are the endpoints, `rest` the bytes that are its own. With
PROXY protocol the first line gives the endpoints and belongs to nobody else; without, the endpoints are those of the
environment or of the socket. -/
inductive Client (w : World E) (opts : List Opt) (e : Proxy.Ends) (rest : Bytes) : Prop where
  | announced (L : Bytes) : b!"1" ∈ values (c! 'p') opts → w.client.src = L ++ c! '\n' :: rest → c! '\n' ∉ L →
      Proxy.Loose w.codec L e → Client w opts e rest
  | direct : b!"1" ∉ values (c! 'p') opts → rest = w.client.src →
      (∀ x, ConnInfo.FromEnv w.codec w.env x → e = x) →
      ((∀ x, ¬ ConnInfo.FromEnv w.codec w.env x) → ∀ x, ConnInfo.FromSock w.loc w.peer x → e = x) → Client w opts e rest

/-- The memory and the answers of the C library have their sizes, and the TLS engine keeps to its buffer for the
certificate's field. -/
structure Sound (w : World E) : Prop where
  codec : w.codec.Lawful
  apart : ConnInfo.Apart w.codec
  strings : ConnInfo.Strings w.env
  loc : w.loc.Sized
  peer : w.peer.Sized
  m1 : w.m1.length = 8192
  m2 : w.m2.length = 8192
  engine : w.engine.Sized

end TlsMain
