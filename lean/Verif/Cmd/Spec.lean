import Verif.Conf.Spec
import Verif.HostPort.Spec
/-
The command lines of tlswrapper-tcp and tlswrapper-smtp, and the name a program is invoked by,
independent of the code.
-/
namespace Cmd.Spec
open Conf.Spec (Opt values last Limit)
open HostPort.Spec

/-- `Word F A w args opts args'`: the letters `w` of one word, followed on the command line by `args`,
mean the options `opts` and leave `args'`; `F` are the letters without an argument, `A` those with one. -/
inductive Word (F A : Bytes) : Bytes → List Bytes → List Opt → List Bytes → Prop where
  | done {args} : Word F A [] args [] args
  | flag {c w args opts args'} : c ∈ F → Word F A w args opts args' → Word F A (c :: w) args (.flag c :: opts) args'
  | attached {c w args} : c ∈ A → w ≠ [] → Word F A (c :: w) args [.arg c w] args
  | separate {c v args} : c ∈ A → Word F A [c] (v :: args) [.arg c v] args

/-- `Reads F A args opts rest`: the arguments mean the options `opts` followed by `rest`. -/
inductive Reads (F A : Bytes) : List Bytes → List Opt → List Bytes → Prop where
  | empty : Reads F A [] [] []
  | rest {a args} : a.head? ≠ some (c! '-') → Reads F A (a :: args) [] (a :: args)
  | dash {args} : Reads F A (b!"-" :: args) [] args
  | dashes {args} : Reads F A (b!"--" :: args) [] args
  | word {w args opts args' opts' rest} : w ≠ [] → w ≠ b!"-" → Word F A w args opts args' → Reads F A args' opts' rest →
      Reads F A ((c! '-' :: w) :: args) (opts ++ opts') rest

/-- The letters of tlswrapper-tcp. -/
def tcpFlags : Bytes := b!"qQv"
def tcpArgs : Bytes := b!"TtpPJj"

/-- The letters of tlswrapper-smtp. -/
def smtpFlags : Bytes := b!"qQvcC"
def smtpArgs : Bytes := b!"uTtgJj"

/-- The program for a name: the part of the path after the last slash decides. -/
inductive Program where
  | wrapper
  | tcp
  | smtp
  deriving Repr, DecidableEq

/-- `Named path name`: `name` is the last component of `path`. -/
def Named (path name : Bytes) : Prop := c! '/' ∉ name ∧ (path = name ∨ ∃ dir, path = dir ++ c! '/' :: name)

/-- A command line tlswrapper-tcp may serve: options, a host and a port; what follows has no meaning. -/
structure TcpGood (args : List Bytes) (opts : List Opt) (host port : Bytes) : Prop where
  reads : ∃ more, Reads tcpFlags tcpArgs args opts (host :: port :: more)
  port : PortText port
  incoming : ∀ v ∈ values (c! 'p') opts, v = b!"0" ∨ v = b!"1"
  outgoing : ∀ v ∈ values (c! 'P') opts, v = b!"0" ∨ v = b!"1"
  timeout : ∃ v, Limit ((last (c! 't') opts).getD b!"3600") v
  connecttimeout : ∃ v, Limit ((last (c! 'T') opts).getD b!"10") v

/-- A command line tlswrapper-smtp may serve: options and a program; a greylist server is a host and a port. -/
structure SmtpGood (ip6 : Bytes → Bool) (args : List Bytes) (opts : List Opt) (prog : List Bytes) : Prop where
  reads : Reads smtpFlags smtpArgs args opts prog
  prog : prog ≠ []
  timeout : ∃ v, Limit ((last (c! 't') opts).getD b!"600") v
  crwtimeout : ∃ v, Limit ((last (c! 'T') opts).getD b!"15") v
  greylist : ∀ x, last (c! 'g') opts = some x → ∃ host port, Parts ip6 x host port ∧ host.length ≤ 255 ∧ port ≠ []

end Cmd.Spec
