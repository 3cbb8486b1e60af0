import Verif.BaseLemmas
/-
Model of tls_crypto_scalarmult.c. BearSSL's curve implementation, X448 and
lib25519 are parameters.
-/
namespace Ec

/-- Curve identifiers (tls.h:114-118, `tls_ecdhe_*`; the numbers are the TLS code points
that BearSSL uses). -/
def secp256r1 : Nat := 23
/-- `tls_ecdhe_SECP384R1` (tls.h:117). -/
def secp384r1 : Nat := 24
/-- `tls_ecdhe_SECP521R1` (tls.h:118). -/
def secp521r1 : Nat := 25
/-- `tls_ecdhe_X25519` (tls.h:114). -/
def x25519 : Nat := 29
/-- `tls_ecdhe_X448` (tls.h:115). -/
def x448 : Nat := 30

/-- The arithmetic outside the repository. `mulgen c sk`: the encoded point
(empty: failure). `mul c p sk`: the bytes left in place of the point, of the same
length, and whether the operation succeeded. `x448`: none if compiled without
X448; base point and general multiplication, each none on failure. `lib25519`:
none if compiled without lib25519 (called at tls_crypto_scalarmult.c:44-82, 106-147). -/
structure Impl where
  mulgen : Nat → Bytes → Bytes
  mul : Nat → Bytes → Bytes → Bytes × Bool
  x448 : Option ((Bytes → Bytes × Bool) × (Bytes → Bytes → Bytes × Bool))
  lib25519 : Option ((Bytes → Bytes) × (Bytes → Bytes → Bytes))

/-- What the parameters are trusted for: how much memory they write (the assumption on the calls at
tls_crypto_scalarmult.c:44-82, 106-147). -/
structure Impl.Lawful (I : Impl) : Prop where
  mulgen : ∀ c s, (I.mulgen c s).length ≤ 133
  mul : ∀ c p s, (I.mul c p s).1.length = p.length
  x448 : ∀ g m, I.x448 = some (g, m) → (∀ s, (g s).1.length = 56) ∧ ∀ s p, (m s p).1.length = 56
  lib25519 : ∀ g m, I.lib25519 = some (g, m) → (∀ s, (g s).length = 32) ∧ ∀ s p, (m s p).length = 32

/-- A use of a secret scalar (tls_crypto_scalarmult.c:44-82, 106-147). -/
inductive Call where
  | gen (curve : Nat) (scalar : Bytes)
  | mul (curve : Nat) (point scalar : Bytes)
  deriving Repr, DecidableEq

/-- What a call returns and leaves behind (`return ret`, `*plen`, `p` and `sk` of
tls_crypto_scalarmult.c:38-85, 99-148). -/
structure Res where
  ret : Int
  p : Bytes
  plen : Nat
  sk : Bytes
  calls : List Call
  deriving Repr, DecidableEq

/-- The first `n` bytes behind a pointer, as an external function reads them (the arguments `p` and
`sk` of those calls, e.g. tls_crypto_scalarmult.c:65, 126). -/
def readN (mem : Bytes) (n : Nat) : Out Bytes := if n ≤ mem.length then .ok (mem.take n) else .ub

/-- tls_crypto_scalarmult.c:63-64 and 70-71: `sk[0] &= 127; sk[0] |= 64;` -/
def clamp (sk : Bytes) : Out Bytes := do
  let b ← rd sk 0
  let sk ← wr sk 0 (b &&& 127)
  let b ← rd sk 0
  wr sk 0 (b ||| 64)

/-- tls_crypto_scalarmult.c:77-78: `sk[0] = 0; sk[1] |= 128;` -/
def clamp521 (sk : Bytes) : Out Bytes := do
  let sk ← wr sk 0 0
  let b ← rd sk 1
  wr sk 1 (b ||| 128)

/-- The three cases of tls_crypto_scalarmult.c:61-82: the scalar of `n` bytes, the point expected to
have `m`. -/
def genCase (I : Impl) (curve n m : Nat) (p sk : Bytes) : Out Res := do
  let s ← readN sk n
  let r := I.mulgen curve s
  let p ← copyN p 0 r r.length
  return ⟨if r.length = m then 0 else -1, p, r.length, sk, [.gen curve s]⟩

/-- tls_crypto_scalarmult.c:38-85 `tls_crypto_scalarmult_base`. -/
def base (I : Impl) (curve : Nat) (p sk : Bytes) : Out Res :=
  if curve = x448 ∧ I.x448.isSome then
    match I.x448 with
    | some (g, _) => do
      let s ← readN sk 56
      let (r, ok) := g s
      let p ← copyN p 0 r r.length
      return ⟨if ok then 0 else -1, p, 56, sk, [.gen curve s]⟩
    | none => .ub
  else if curve = x25519 then
    match I.lib25519 with
    | some (g, _) => do
      let s ← readN sk 32
      let r := g s
      let p ← copyN p 0 r r.length
      return ⟨0, p, 32, sk, [.gen curve s]⟩
    | none => genCase I curve 32 32 p sk
  else if curve = secp256r1 then do
    let sk ← clamp sk
    genCase I curve 32 65 p sk
  else if curve = secp384r1 then do
    let sk ← clamp sk
    genCase I curve 48 97 p sk
  else if curve = secp521r1 then do
    let sk ← clamp521 sk
    genCase I curve 66 133 p sk
  else .ok ⟨-1, p, 0, sk, []⟩

/-- `for (i = 0; i < n; ++i) p[i] = p[i + 1];` (tls_crypto_scalarmult.c:127, 135, 143). -/
def shift : Nat → Nat → Bytes → Out Bytes
  | 0, _, p => .ok p
  | n + 1, i, p => do
    let b ← rd p (i + 1)
    let p ← wr p i b
    shift n (i + 1) p

/-- The three cases of tls_crypto_scalarmult.c:122-147: the point of `m` bytes, the scalar and the
result of `n`. -/
def mulCase (I : Impl) (curve n m : Nat) (p sk : Bytes) : Out Res := do
  let s ← readN sk n
  let q ← readN p m
  let (r, ok) := I.mul curve q s
  let p ← copyN p 0 r r.length
  let p ← shift n 0 p
  return ⟨if ok then 0 else -1, p, n, sk, [.mul curve q s]⟩

/-- tls_crypto_scalarmult.c:99-148 `tls_crypto_scalarmult`. -/
def mul (I : Impl) (curve : Nat) (p sk : Bytes) : Out Res :=
  if curve = x448 ∧ I.x448.isSome then
    match I.x448 with
    | some (_, m) => do
      let s ← readN sk 56
      let q ← readN p 56
      let (r, ok) := m s q
      let p ← copyN p 0 r r.length
      return ⟨if ok then 0 else -1, p, 56, sk, [.mul curve q s]⟩
    | none => .ub
  else if curve = x25519 then
    match I.lib25519 with
    | some (_, m) => do
      let s ← readN sk 32
      let q ← readN p 32
      let r := m s q
      let p ← copyN p 0 r r.length
      return ⟨0, p, 32, sk, [.mul curve q s]⟩
    | none => do
      let s ← readN sk 32
      let q ← readN p 32
      let (r, ok) := I.mul curve q s
      let p ← copyN p 0 r r.length
      return ⟨if ok then 0 else -1, p, 32, sk, [.mul curve q s]⟩
  else if curve = secp256r1 then do
    let sk ← clamp sk
    mulCase I curve 32 65 p sk
  else if curve = secp384r1 then do
    let sk ← clamp sk
    mulCase I curve 48 97 p sk
  else if curve = secp521r1 then do
    let sk ← clamp521 sk
    mulCase I curve 66 133 p sk
  else .ok ⟨-1, p, 0, sk, []⟩

end Ec
