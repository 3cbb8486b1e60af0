import Verif.Session.Model
import Verif.Relay.Spec
/-
What is visible of a whole session.
-/
namespace Session
open Relay

/-- The bytes one action puts into the child's input. -/
def input1 : Act Fd → Bytes
  | .write .childin d => d
  | .eng (.user d) => d
  | _ => []

/-- All actions of the session, in order. -/
def Run.log {E : Type} : Run E → List (Act Fd)
  | .boot => []
  | .clear _ s _ => s.w.log
  | .tls _ cl s _ => cl ++ s.w.log

/-- Everything that was put into the child's input; a write that has not returned does not
count. -/
def Run.input {E : Type} : Run E → Bytes
  | .boot => []
  | .clear pre s _ => pre ++ s.w.log.flatMap input1
  | .tls pre cl s _ => pre ++ (cl ++ s.w.log).flatMap input1

/-- The descriptors that are open. -/
def Run.fds {E : Type} : Run E → Fd → Bool
  | .boot => fun _ => true
  | .clear _ s _ => s.w.op
  | .tls _ _ s _ => s.w.op

end Session
