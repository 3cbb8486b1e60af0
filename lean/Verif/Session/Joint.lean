import Verif.Session.Spec
import Verif.Smtp.Model
/-
C90: what a history of the relay and the SMTP front end together is. Nothing here refers to
how either of them works: only to what they did, and in which order.
-/
namespace Session.Joint
open Relay

/-- One action of the relay (left) or of the front end (right).
(Specification or proof notion; models no line of /repo.) -/
abbrev Move := Act Fd ⊕ Smtp.Act

/-- What the relay did. (Specification or proof notion; models no line of /repo.) -/
def ofRelay (H : List Move) : List (Act Fd) := H.filterMap Sum.getLeft?

/-- What the front end did. (Specification or proof notion; models no line of /repo.) -/
def ofFront (H : List Move) : List Smtp.Act := H.filterMap Sum.getRight?

/-- The bytes the front end wrote for the client, to its standard output.
(Specification or proof notion; models no line of /repo.) -/
def said (l : List Smtp.Act) : Bytes := l.flatMap fun | .client d => d | _ => []

/-- The bytes the front end wrote to the control pipe.
(Specification or proof notion; models no line of /repo.) -/
def asked (l : List Smtp.Act) : Bytes := l.flatMap fun | .ctl d => d | _ => []

/-- The bytes the front end read from the acknowledgement pipe.
(Specification or proof notion; models no line of /repo.) -/
def acked (l : List Smtp.Act) : Bytes := l.flatMap fun | .ack b => [b] | _ => []

/-- The bytes of the lines the front end interpreted.
(Specification or proof notion; models no line of /repo.) -/
def lines (l : List Smtp.Act) : Bytes := l.flatMap fun | .line raw => raw ++ [10] | _ => []

/-- How many of the `n` bytes the front end's standard input delivers in all were still
to come. (Specification or proof notion; models no line of /repo.) -/
def toCome (n : Nat) : List Smtp.Act → Nat
  | .line raw :: l => toCome (n - (raw.length + 1)) l
  | .discard k :: l => toCome (min k n) l
  | _ :: l => toCome n l
  | [] => n

/-- `H`, a history of both processes, combines the relay's actions `log` and the front end's
`flog`; the front end's standard input delivered `net`. The pipes between them are
faithful: what is read from one was written to it before, in the same order. And when the front
end stops throwing away its input there was a moment, after its previous action, at
which the pipe was empty (the last `poll` of main_tlswrapper_smtp.c:262-287). -/
structure Joined (log : List (Act Fd)) (net : List Smtp.Ev) (flog : List Smtp.Act) (H : List Move) : Prop where
  relay : ofRelay H = log
  front : ofFront H = flog
  input : Smtp.evStream net = wroteOf .childin log
  reply : ∀ p q, H = p ++ q → readOf .childout (ofRelay p) <+: said (ofFront p)
  request : ∀ p q, H = p ++ q → readOf .ctl (ofRelay p) <+: asked (ofFront p)
  ack : ∀ p q, H = p ++ q → acked (ofFront p) <+: wroteOf .ack (ofRelay p)
  command : ∀ p q, H = p ++ q → (wroteOf .childin log).length ≤
    (wroteOf .childin (ofRelay p)).length + toCome (wroteOf .childin log).length (ofFront p)
  empty : ∀ p n q, H = p ++ .inr (.discard n) :: q → ∃ p1 p2, p = p1 ++ p2 ∧ ofFront p2 = [] ∧
    (wroteOf .childin (ofRelay p1)).length + n = (wroteOf .childin log).length

end Session.Joint
