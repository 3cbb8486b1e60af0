import Verif.Base
/-
The part of the kernel that fd.c works on: descriptors, open files, sockets and pipes, and what the
other end notices. Nothing here is taken from fd.c.
-/
namespace Fd

/-- What an open file is: an end of a connection, an end of a pipe, or something else. -/
inductive Kind where
  | sock (id : Nat)
  | rpipe (id : Nat)
  | wpipe (id : Nat)
  | other
  deriving DecidableEq

/-- An open file: several descriptors, in several processes, can refer to one. `status` are the flags of F_GETFL. -/
structure File where
  kind : Kind
  status : BitVec 32

/-- A connection: whether its two directions were shut down at this end. -/
structure Sock where
  connected : Bool
  shutRd : Bool
  shutWr : Bool
  deriving DecidableEq

structure Kern where
  /-- the descriptors of this process: the open file, and the flags of F_GETFD -/
  fds : Nat → Option (Nat × BitVec 32)
  files : Nat → File
  /-- open files to which a descriptor of another process refers -/
  elsewhere : Nat → Prop
  socks : Nat → Sock

/-- Some descriptor refers to an open file of this kind. -/
def Held (k : Kern) (w : Kind) : Prop := ∃ d, (k.files d).kind = w ∧ (k.elsewhere d ∨ ∃ n fl, k.fds n = some (d, fl))

/-- The other end of connection `id` reads end-of-file, once it has read what was written before. -/
def OutEnded (k : Kern) (id : Nat) : Prop := (k.socks id).shutWr = true ∨ ¬ Held k (.sock id)

/-- Nothing is taken from connection `id` any more. -/
def InEnded (k : Kern) (id : Nat) : Prop := (k.socks id).shutRd = true ∨ ¬ Held k (.sock id)

/-- The reader of pipe `id` reads end-of-file; the writer gets EPIPE. -/
def NoWriter (k : Kern) (id : Nat) : Prop := ¬ Held k (.wpipe id)
def NoReader (k : Kern) (id : Nat) : Prop := ¬ Held k (.rpipe id)

/-- Except that number `n` was released, the descriptors and the open files are as before. -/
structure Released (k k' : Kern) (n : Nat) : Prop where
  free : k'.fds n = none
  others : ∀ m, m ≠ n → k'.fds m = k.fds m
  files : k'.files = k.files
  elsewhere : k'.elsewhere = k.elsewhere

/-- Two sets of flags differ at most in bit `i`. -/
def OnlyBit (i : Nat) (a b : BitVec 32) : Prop := ∀ j, j ≠ i → a.getLsbD j = b.getLsbD j

end Fd
