import Verif.Relay.Base
/-
Specification vocabulary for the relay loops: what was read from and written to
each descriptor according to the trace of actions.
-/
namespace Relay
variable {F : Type} [DecidableEq F]

/-- The bytes one action received from descriptor `f`. -/
def Act.readOn (f : F) : Act F → Bytes
  | .read g d => if g = f then d else []
  | _ => []

/-- The bytes one action sent to descriptor `f`. -/
def Act.wroteOn (f : F) : Act F → Bytes
  | .write g d => if g = f then d else []
  | _ => []

/-- All bytes received from `f`, in order. -/
def readOf (f : F) (log : List (Act F)) : Bytes := log.flatMap (Act.readOn f)

/-- All bytes sent to `f`, in order. -/
def wroteOf (f : F) (log : List (Act F)) : Bytes := log.flatMap (Act.wroteOn f)

/-- `P` holds of every action of the trace and the actions before it. -/
def Always (P : List (Act F) → Act F → Prop) (log : List (Act F)) : Prop :=
  ∀ pre a post, log = pre ++ a :: post → P pre a

/-- The descriptor an action uses (reads from, writes to or closes). -/
def Act.on : Act F → Option F
  | .read f _ => some f
  | .ended f => some f
  | .write f _ => some f
  | .failed f => some f
  | .close f => some f
  | .alarm _ => none
  | .sig _ => none
  | .eng _ => none

/-- No descriptor is used after it was closed. -/
def NoUseAfterClose (log : List (Act F)) : Prop :=
  Always (fun pre a => ∀ f, a.on = some f → Act.close f ∉ pre) log

end Relay
