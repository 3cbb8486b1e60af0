import Verif.Base
/-
What a PEM decoder reports, and what a bundle of PEM objects means: the certificates of the
bundle, and its private key. Independent of the code.
-/
namespace Crt

/-- What one call of the PEM decoder ends with. -/
inductive Ev where
  /-- nothing to report -/
  | none
  /-- an object of this name begins, or ends -/
  | begin (name : Bytes)
  | fin (name : Bytes)
  /-- the input is not PEM -/
  | error
  deriving Repr, DecidableEq

/-- One call of the PEM decoder: the decoded bytes it hands over, and the event. -/
structure Push where
  chunks : List Bytes
  ev : Ev
  deriving Repr, DecidableEq

/-- How the input ends. -/
inductive Ending where
  /-- after the last object -/
  | whole
  /-- within an object -/
  | cut
  /-- with something malformed -/
  | malformed
  deriving Repr, DecidableEq

/-- `Stream cur ps objs e`: inside the object `cur` (its name and the bytes so far), or outside any, the decoder's
reports `ps` mean the complete objects `objs`, name and contents, and the ending `e`. -/
inductive Stream : Option (Bytes × Bytes) → List Push → List (Bytes × Bytes) → Ending → Prop where
  | done : Stream .none [] [] .whole
  | cut {n b} : Stream (some (n, b)) [] [] .cut
  | idle {ps objs e} : Stream .none ps objs e → Stream .none (⟨[], .none⟩ :: ps) objs e
  | begin {n ps objs e} : Stream (some (n, [])) ps objs e → Stream .none (⟨[], .begin n⟩ :: ps) objs e
  | data {n b cs ps objs e} : Stream (some (n, b ++ cs.flatten)) ps objs e → Stream (some (n, b)) (⟨cs, .none⟩ :: ps) objs e
  | fin {n b cs ps objs e} : Stream .none ps objs e → Stream (some (n, b)) (⟨cs, .fin n⟩ :: ps) ((n, b ++ cs.flatten) :: objs) e
  | error {cur cs ps} : (cur = .none → cs = []) → Stream cur (⟨cs, .error⟩ :: ps) [] .malformed

/-- The names of certificates and of private keys (RFC 7468, and the older ones). -/
def isCert (n : Bytes) : Prop := n = b!"CERTIFICATE" ∨ n = b!"X509 CERTIFICATE"
def isKey (n : Bytes) : Prop := n = b!"EC PRIVATE KEY" ∨ n = b!"RSA PRIVATE KEY" ∨ n = b!"PRIVATE KEY"

instance (n : Bytes) : Decidable (isCert n) := inferInstanceAs (Decidable (_ ∨ _))
instance (n : Bytes) : Decidable (isKey n) := inferInstanceAs (Decidable (_ ∨ _))

/-- The contents of the certificates, and of the private keys, in order. -/
def certs (objs : List (Bytes × Bytes)) : List Bytes := (objs.filter (fun o => isCert o.1)).map (·.2)
def keys (objs : List (Bytes × Bytes)) : List Bytes := (objs.filter (fun o => isKey o.1)).map (·.2)

/-- A public key, as the TLS library decodes it. -/
inductive Pkey where
  | rsa (n e : Bytes)
  | ec (curve : Int) (q : Bytes)
  | other (type : Nat)
  deriving Repr, DecidableEq

/-- What the TLS library's certificate decoder says about a certificate. `dn`: the pieces of the subject's name. -/
structure X509 where
  dn : List Bytes
  err : Nat
  pkey : Option Pkey
  ca : Bool
  deriving Repr, DecidableEq

/-- A trust anchor. -/
structure Anchor where
  dn : Bytes
  ca : Bool
  pkey : Pkey
  deriving Repr, DecidableEq

/-- A certificate with a usable key. -/
def Usable (x : X509) (a : Anchor) : Prop :=
  x.err = 0 ∧ x.pkey = some a.pkey ∧ (∀ t, a.pkey ≠ .other t) ∧ a.dn = x.dn.flatten ∧ a.ca = x.ca

/-- The type of the key. -/
inductive Kt where
  | rsa | ec
  deriving Repr, DecidableEq

def Pkey.type : Pkey → Option Kt
  | .rsa _ _ => some .rsa
  | .ec _ _ => some .ec
  | .other _ => none

/-- The number of bytes the decoder hands over. -/
def total (ps : List Push) : Nat := (ps.map (fun p => p.chunks.flatten.length)).sum

def Pkey.size : Pkey → Nat
  | .rsa n e => n.length + e.length
  | .ec _ q => q.length
  | .other _ => 0

/-- The certificate decoder produces nothing huge (the name is a part of the certificate, the key is in a buffer of BearSSL's). -/
def Small (x509 : Bytes → X509) : Prop :=
  ∀ d, d.length < 2 ^ 60 → (x509 d).dn.flatten.length < 2 ^ 60 ∧ ∀ k, (x509 d).pkey = some k → k.size < 2 ^ 60

/-- The allocator grants at least the next `k` requests. -/
def Plenty (k : Nat) (ans : List Bool) : Prop := k ≤ ans.length ∧ ∀ a ∈ ans, a = true

/-- What a certificate costs the allocator. -/
def cost (x : X509) : Nat := x.dn.length + 4

/-- Two lists of the same length, related element by element. -/
inductive Each {α β : Type} (R : α → β → Prop) : List α → List β → Prop where
  | nil : Each R [] []
  | cons {a b l m} : R a b → Each R l m → Each R (a :: l) (b :: m)

/-- What the whole input costs the allocator. -/
def budget (x509 : Bytes → X509) (ps : List Push) (objs : List (Bytes × Bytes)) : Nat :=
  (ps.map (·.chunks.length)).sum + ((certs objs).map (fun d => cost (x509 d))).sum

/-- The key type of the first certificate of a chain. -/
def FirstType (x509 : Bytes → X509) (chain : List Bytes) (k : Option Kt) : Prop :=
  ∃ d rest pk, chain = d :: rest ∧ (x509 d).pkey = some pk ∧ k = pk.type

end Crt
