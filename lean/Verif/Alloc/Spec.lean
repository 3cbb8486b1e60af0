import Verif.Alloc.Model
/-
Histories of allocator use, and the caller's view of them: the list of live
blocks, each with the address and size the caller was given.
-/
namespace Alloc

/-- Two address ranges do not overlap. -/
def Disj (a n b m : Nat) : Prop := a + n ≤ b ∨ b + m ≤ a

/-- What a caller (and its environment) does. -/
inductive Op where
  | alloc (n : Int) (m : Ans)
  | free (p : Nat)
  | freeall
  | limit (v : Int)
  | write (a : Nat) (b : Byte)

/-- The caller's record of a block: address and requested size. -/
structure Block where
  addr : Nat
  size : Int
  deriving Repr, DecidableEq

/-- The state of the allocator, the live blocks of the caller and the contents of
every block that was passed to the C library's free() so far. -/
structure World where
  st : St
  live : List Block
  freed : Freed

/-- The bytes the caller may use: at least the size asked for, rounded up to 32. -/
def Block.room (b : Block) : Nat := alignedLen b.size

/-- Run one operation of the model and keep the caller's record. -/
def step (base : Nat) (w : World) : Op → Out World
  | .alloc n m => do
    let (p, st, fs) ← alloc base w.st n m
    return ⟨st, if p = 0 then w.live else ⟨p, n⟩ :: w.live, w.freed ++ fs⟩
  | .free p => do
    let (st, fs) ← free base w.st p
    return ⟨st, w.live.filter (fun b => b.addr ≠ p), w.freed ++ fs⟩
  | .freeall =>
    let (st, fs) := freeall base w.st
    .ok ⟨st, [], w.freed ++ fs⟩
  | .limit v => .ok ⟨limitSet w.st v, w.live, w.freed⟩
  | .write a b => .ok ⟨{ w.st with mem := fun x => if x = a then b else w.st.mem x }, w.live, w.freed⟩

/-- Address ranges malloc has given out and not got back. -/
def owned (st : St) : List (Nat × Nat) :=
  st.nodes.flatMap (fun nd => [(nd.ptr, alignedLen nd.len), (nd.naddr, NODE)])

/-- The assumption on malloc: a returned block is 16-aligned, not NULL, and does not
overlap the arena or any block malloc has given out. -/
def MallocOk (base : Nat) (st : St) (n : Int) (m : Ans) : Prop :=
  (∀ x, m.x = some x → 0 < x ∧ x % 16 = 0 ∧ Disj x (alignedLen n) base STATIC ∧
    ∀ r ∈ owned st, Disj x (alignedLen n) r.1 r.2) ∧
  (∀ q, m.node = some q → Disj q NODE base STATIC ∧ (∀ r ∈ owned st, Disj q NODE r.1 r.2) ∧
    ∀ x, m.x = some x → Disj x (alignedLen n) q NODE) ∧
  (∀ r, m.rlimitAs = some r → IsLL r) ∧ (∀ r, m.rlimitData = some r → IsLL r)

/-- A legitimate operation: sizes and limits are long longs, malloc behaves, the
caller writes only inside its own live blocks. free() may be called on anything. -/
def Legit (base : Nat) (w : World) : Op → Prop
  | .alloc n m => IsLL n ∧ MallocOk base w.st n m
  | .free _ => True
  | .freeall => True
  | .limit v => IsLL v
  | .write a _ => ∃ b ∈ w.live, b.addr ≤ a ∧ a < b.addr + b.room

/-- The worlds a program can reach. -/
inductive Reach (base : Nat) : World → Prop where
  | init (mem : Mem) : (∀ a, base ≤ a → a < base + STATIC → mem a = 0) → Reach base ⟨St.init mem, [], []⟩
  | step {w w' op} : Reach base w → Legit base w op → step base w op = .ok w' → Reach base w'

/-- The arena is an aligned object that is not at address 0. -/
def BaseOk (base : Nat) : Prop := 0 < base ∧ base % 32 = 0

/-- What the caller holds from the heap: the sizes of its live blocks outside the arena. -/
def heapSum (base : Nat) : List Block → Int
  | [] => 0
  | b :: bs => (if isStatic base b.addr then 0 else b.size) + heapSum base bs

end Alloc
