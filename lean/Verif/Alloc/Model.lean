import Verif.Base
/-
Model of alloc.c on a 64-bit machine (sizeof(unsigned long) = 8). Memory is a
function from addresses to bytes. malloc and getrlimit are parameters: each
allocation carries the answers they give. The contents of `struct alloc_node` are
kept in the list `nodes`; where malloc put them is `naddr`.
-/
namespace Alloc

/-- alloc.h: alloc_ALIGNMENT (4 * sizeof(unsigned long)). -/
def ALIGN : Nat := 32
/-- alloc.h: alloc_STATICSPACE. -/
def STATIC : Nat := 131072
/-- sizeof(struct alloc_node) (alloc.c:160). -/
def NODE : Nat := 24

/-- Contents of the blocks handed out (alloc.c:210-297). -/
abbrev Mem := Nat → Byte

/-- alloc.c:20-24. -/
structure Node where
  ptr : Nat
  len : Int
  naddr : Nat
  deriving Repr, DecidableEq

/-- alloc.c:26-31: the static variables, and memory. -/
structure St where
  mem : Mem
  avail : Nat
  allocated : Int
  nodes : List Node
  limit : Int

/-- Initial values, alloc.c:26-31; the arena is a zero-initialised static object. -/
def St.init (mem : Mem) : St := ⟨mem, STATIC, 0, [], -1⟩

/-- What the environment answers during one allocation: the block and its old contents,
the tracking node, and the two soft limits (`none` if getrlimit fails), as
`long long` (alloc.c:60-82, 156-170, 210-297). -/
structure Ans where
  x : Option Nat
  fill : Mem
  node : Option Nat
  rlimitAs : Option Int
  rlimitData : Option Int

/-- Signed subtraction and addition; overflow is undefined behaviour (alloc.c:58-84, 210-297). -/
def subLL (a b : Int) : Out Int := if llmin ≤ a - b ∧ a - b ≤ llmax then .ok (a - b) else .ub
/-- Signed addition (alloc.c:58-84, 210-297). -/
def addLL (a b : Int) : Out Int := if llmin ≤ a + b ∧ a + b ≤ llmax then .ok (a + b) else .ub

/-- alloc.c:42-49. -/
def limitSet (st : St) (value : Int) : St :=
  if value < 0 then st else { st with limit := value }

/-- alloc.c:68-71 and 75-78. -/
def lower (limit : Int) : Option Int → Int
  | none => limit
  | some r => if r > 0 ∧ r < limit then r else limit

/-- alloc.c:58-82. -/
def limitGet (st : St) (m : Ans) : St :=
  if st.limit ≠ -1 then st
  else { st with limit := lower (lower llmax m.rlimitAs) m.rlimitData }

/-- alloc.c:91-99. (`len` is a long long, so the unsigned sum cannot wrap.) -/
def alignedLen (len : Int) : Nat :=
  if len ≤ 0 then ALIGN else (len.toNat + ALIGN - 1) / ALIGN * ALIGN

/-- alloc.c:108-115. -/
def isStatic (base p : Nat) : Bool := base ≤ p ∧ p < base + STATIC

/-- alloc.c:136-146: zero `n / 8` words of 8 bytes. -/
def cleanup (mem : Mem) (x n : Nat) : Mem :=
  fun a => if x ≤ a ∧ a < x + n / 8 * 8 then 0 else mem a

/-- The bytes of a block (alloc.c:136-146). -/
def bytesAt (mem : Mem) (x n : Nat) : Bytes := (List.range n).map (fun i => mem (x + i))

/-- alloc.c:176-193: the removed node and the remaining list. -/
def remove (p : Nat) : List Node → Option (Node × List Node)
  | [] => none
  | nd :: ns =>
    if nd.ptr = p then some (nd, ns)
    else
      match remove p ns with
      | none => none
      | some (x, ns) => some (x, nd :: ns)

/-- A block handed back to the C library: its contents at that moment (alloc.c:299-345). -/
abbrev Freed := List Bytes

/-- alloc.c:210-287: the returned pointer (0 for NULL), the state, blocks passed to free().
The size_t check of :258 is always true with a 64-bit size_t. -/
def alloc (base : Nat) (st : St) (norig : Int) (m : Ans) : Out (Nat × St × Freed) :=
  if norig < 0 then .ok (0, st, [])                                           -- :216
  else if norig.toNat > (2 ^ 63 - 1) - (ALIGN - 1) then .ok (0, st, [])       -- :225
  else
    let n := alignedLen norig                                                 -- :238
    if n ≤ st.avail then
      .ok (base + (st.avail - n), { st with avail := st.avail - n }, [])      -- :240-243
    else
      let st := limitGet st m                                                 -- :246
      if st.allocated > st.limit then .ok (0, st, [])                         -- :251
      else do
        let room ← subLL st.limit st.allocated
        if norig > room then return (0, st, [])
        else
          match m.x with                                                      -- :265
          | none => return (0, st, [])
          | some x =>
            let mem : Mem := fun a => if x ≤ a ∧ a < x + n then m.fill a else st.mem a
            let mem := cleanup mem x n                                        -- :271
            match m.node with                                                 -- :273
            | none =>
              let mem := cleanup mem x n
              return (0, { st with mem := mem }, [bytesAt mem x n])
            | some q =>
              let allocated ← addLL st.allocated norig                        -- :282
              return (x, { st with mem := mem, allocated := allocated,
                                   nodes := ⟨x, norig, q⟩ :: st.nodes }, [])

/-- alloc.c:299-321. -/
def free (base : Nat) (st : St) (p : Nat) : Out (St × Freed) :=
  if p = 0 then .ok (st, [])
  else if isStatic base p then .ok (st, [])
  else
    match remove p st.nodes with
    | none => .ok (st, [])
    | some (nd, ns) => do
      let n := alignedLen nd.len
      let allocated ← subLL st.allocated nd.len
      let mem := cleanup st.mem p n
      return ({ st with mem := mem, allocated := allocated, nodes := ns }, [bytesAt mem p n])

/-- alloc.c:333-341: the loop of alloc_freeall. -/
def freeNodes (mem : Mem) : List Node → Mem × Freed
  | [] => (mem, [])
  | nd :: ns =>
    let mem := cleanup mem nd.ptr (alignedLen nd.len)
    let b := bytesAt mem nd.ptr (alignedLen nd.len)
    let (mem, fs) := freeNodes mem ns
    (mem, b :: fs)

/-- alloc.c:328-345. -/
def freeall (base : Nat) (st : St) : St × Freed :=
  let (mem, fs) := freeNodes st.mem st.nodes
  ({ st with mem := cleanup mem base STATIC, avail := STATIC, allocated := 0, nodes := [] }, fs)

end Alloc
