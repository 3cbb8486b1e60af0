import Verif.Base
/-
Model of stralloc.c. A stralloc owns its block (blocks never overlap: C22), so the
block is a byte list of exactly `alloc` bytes. Whether an allocation succeeds is
decided by the environment: `ans` lists its answers (an empty list means refusal).
The destination pointer itself is never NULL in the model (a NULL destination is
answered by returning 0 in the first line of every function).
-/
namespace Stralloc

/-- stralloc.h:6-10. `s = none` is the NULL pointer. -/
structure SA where
  s : Option Bytes
  len : Nat
  alloc : Nat
  deriving Repr, DecidableEq

/-- `stralloc x = {0}` (stralloc.h:6-12, e.g. main_tlswrapper_smtp.c:242). -/
def SA.zero : SA := ⟨none, 0, 0⟩

/-- `alloc(n)`: zeroed memory (C22) or NULL; requests that cannot be rounded up are refused (alloc.c:225). -/
def allocate (n : Nat) : List Bool → Option Bytes × List Bool
  | [] => (none, [])
  | a :: as => (if a ∧ n ≤ 2 ^ 63 - 32 then some (List.replicate n 0) else none, as)

/-- stralloc.c:41: `while (need > newalloc) newalloc = 2 * newalloc + 32`, signed overflow is UB. -/
def grow (need newalloc : Nat) : Out Nat :=
  if need > newalloc then
    if 2 * newalloc + 32 > 2 ^ 63 - 1 then .ub else grow need (2 * newalloc + 32)
  else .ok newalloc
termination_by need - newalloc

/-- stralloc.c:27-52. -/
def readyplus (r : SA) (len : Int) (ans : List Bool) : Out (Nat × SA × List Bool) :=
  if len < 0 then .ok (0, r, ans)                                     -- :33
  else if len = 0 then .ok (1, r, ans)                                -- :37
  else
    let need := r.len + len.toNat + 1
    if need > 2 ^ 63 - 1 then .ub                                     -- :39, signed overflow
    else if need > r.alloc then do
      let newalloc ← grow need r.alloc                                -- :40-41
      match allocate newalloc ans with                                -- :42
      | (none, ans) => return (0, r, ans)                             -- :43
      | (some newdata, ans) =>
        match r.s with
        | none => return (1, { r with s := some newdata, alloc := newalloc }, ans)
        | some s => do
          let newdata ← copyN newdata 0 s r.len                       -- :45
          return (1, { r with s := some newdata, alloc := newalloc }, ans)
    else .ok (1, r, ans)

/-- stralloc.c:69-84, the source being memory other than the string's own block. -/
def catb (r : SA) (x : Option Bytes) (xlen : Int) (ans : List Bool) : Out (Nat × SA × List Bool) :=
  match x with
  | none => .ok (0, r, ans)                                           -- :74
  | some x =>
    if xlen < 0 then .ok (0, r, ans)
    else if xlen = 0 then .ok (1, r, ans)                             -- :78
    else do
      let (ok, r, ans) ← readyplus r xlen ans                         -- :80
      if ok = 0 then return (0, r, ans)
      else
        match r.s with
        | none => .ub
        | some s => do
          let s ← copyN s r.len x xlen.toNat                          -- :81
          return (1, { r with s := some s, len := r.len + xlen.toNat }, ans)

/-- stralloc.c:106: the length of a C string. -/
def strlen : Bytes → Out Nat
  | [] => .ub
  | b :: m =>
    if b = 0 then .ok 0
    else
      match strlen m with
      | .ub => .ub
      | .ok n => .ok (n + 1)

/-- stralloc.c:96-108. -/
def cats (r : SA) (x : Option Bytes) (ans : List Bool) : Out (Nat × SA × List Bool) :=
  match x with
  | none => .ok (0, r, ans)
  | some x => do
    let xlen ← strlen x
    catb r (some x) xlen ans

/-- stralloc.c:120-128 for two different strings. -/
def cat (x y : SA) (ans : List Bool) : Out (Nat × SA × List Bool) := catb x y.s y.len ans

/-- stralloc.c:120-128 for `stralloc_cat(x, x)`: the source is the block the string had when
the call was made; growing frees that block, and the copy then reads freed memory. -/
def catSelf (x : SA) (ans : List Bool) : Out (Nat × SA × List Bool) :=
  match x.s with
  | none => .ok (0, x, ans)
  | some _ =>
    if x.len = 0 then .ok (1, x, ans)
    else do
      let (ok, r, ans) ← readyplus x x.len ans
      if ok = 0 then return (0, r, ans)
      else if r.alloc ≠ x.alloc then .ub
      else
        match r.s with
        | none => .ub
        | some s => do
          let s ← copyN s r.len s r.len
          return (1, { r with s := some s, len := r.len + r.len }, ans)

/-- stralloc.c:141-150. -/
def copyb (r : SA) (x : Option Bytes) (xlen : Int) (ans : List Bool) : Out (Nat × SA × List Bool) :=
  catb { r with len := 0 } x xlen ans

/-- stralloc.c:163-172. -/
def copys (r : SA) (x : Option Bytes) (ans : List Bool) : Out (Nat × SA × List Bool) :=
  cats { r with len := 0 } x ans

/-- stralloc.c:184-193 for two different strings. -/
def copy (x y : SA) (ans : List Bool) : Out (Nat × SA × List Bool) :=
  cat { x with len := 0 } y ans

/-- stralloc.c:203-205. -/
def append (r : SA) (b : Byte) (ans : List Bool) : Out (Nat × SA × List Bool) :=
  catb r (some [b]) 1 ans

/-- stralloc.c:217. -/
def zero (r : SA) (ans : List Bool) : Out (Nat × SA × List Bool) := append r 0 ans

/-- stralloc.c:242-247. -/
def digits (q : Nat) : Nat := if q > 9 then digits (q / 10) + 1 else 1

/-- stralloc.c:253-256: `s` is `off` bytes into the block. -/
def fill (buf : Bytes) (off : Nat) : Nat → Nat → Out Bytes
  | 0, _ => .ok buf
  | len + 1, u =>
    match wr buf (off + len) (UInt8.ofNat (48 + u % 10)) with
    | .ub => .ub
    | .ok buf => fill buf off len (u / 10)

/-- stralloc.c:231-259. -/
def catunum0 (sa : SA) (u : Nat) (n : Int) (ans : List Bool) : Out (Nat × SA × List Bool) := do
  let len : Int := digits u
  let len := if len < n then n else len                               -- :248
  let (ok, sa, ans) ← readyplus sa len ans                            -- :250
  if ok = 0 then return (0, sa, ans)
  else
    match sa.s with
    | none => .ub
    | some s => do
      let s ← fill s sa.len len.toNat u
      return (1, { sa with s := some s, len := sa.len + len.toNat }, ans)

/-- stralloc.c:272-291. -/
def catnum0 (sa : SA) (l : Int) (n : Int) (ans : List Bool) : Out (Nat × SA × List Bool) :=
  if l < 0 then do
    let (ok, sa, ans) ← append sa (c! '-') ans                        -- :282
    if ok = 0 then return (0, sa, ans)
    else catunum0 sa (toU64 (-(toU64 l : Int))) n ans                 -- :285
  else catunum0 sa (toU64 l) n ans

/-- stralloc.c:301-303. -/
def catnum (r : SA) (num : Int) (ans : List Bool) : Out (Nat × SA × List Bool) := catnum0 r num 0 ans

/-- stralloc.c:315-324. -/
def copynum (r : SA) (num : Int) (ans : List Bool) : Out (Nat × SA × List Bool) :=
  catnum { r with len := 0 } num ans

/-- stralloc.c:334-341. -/
def free (_ : SA) : SA := ⟨none, 0, 0⟩

end Stralloc
