import Verif.Base
/-
Specification of the pipe framing.
-/
namespace Pipe.Spec

/-- The value of a little-endian byte string. -/
def le : Bytes → Nat
  | [] => 0
  | b :: x => b.toNat + 256 * le x

/-- `h` is the 8-byte little-endian encoding of `n`. -/
def Header (h : Bytes) (n : Nat) : Prop := h.length = 8 ∧ le h = n

/-- `f` is the frame of message `m`: length header, then the bytes. -/
def Frame (f m : Bytes) : Prop := ∃ h, Header h m.length ∧ f = h ++ m

/-- `s` is the concatenation of the frames of the messages. -/
inductive Frames : Bytes → List Bytes → Prop where
  | nil : Frames [] []
  | cons {f m s ms} : Frame f m → Frames s ms → Frames (f ++ s) (m :: ms)

end Pipe.Spec
