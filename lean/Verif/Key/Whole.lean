import Verif.Key.Net
import Verif.Key.Spec
/-
Specification: a connection whose keys are at hand. The network process asks for
certificates, for a point, for a signature, hands over the peer's point, and then asks
for the verify data of the Finished messages and for records to be opened and sealed, in
an order of its own choosing that may depend on the answers. Here every question is
answered directly, with no other process and no pipe.
-/
namespace Key

/-- Uses of the files and secrets (as opposed to messages).
(Specification or proof notion; models no line of /repo.) -/
def Act.isUse : Act → Bool
  | .load .. | .keygen .. | .sign .. | .agree .. | .prf .. | .decrypt .. | .encrypt .. => true
  | _ => false

/-- What the TLS engine asks once the secret is agreed: each question may depend on all
the answers so far. `rnd` is what the engine's buffer is filled with should the answer
not arrive. (Specification or proof notion; models no line of /repo.) -/
inductive Caller where
  | done
  | prf (label seed rnd : Bytes) (next : Bytes → Caller)
  | dec (type version : Nat) (x : Bytes) (next : Option (Int × Bytes) → Caller)
  | enc (type version : Nat) (x : Bytes) (next : Option (Int × Bytes) → Caller)

/-- An answer: bytes, or a record and where it lies.
(Specification or proof notion; models no line of /repo.) -/
inductive Ans where
  | bytes (y : Bytes)
  | record (r : Option (Int × Bytes))
  deriving Repr, DecidableEq

/-- The questions put to the key process (the calls of tls_pipe.c:207-407, in the order of the caller). -/
def Net.talk : Caller → Net.M (List Ans)
  | .done => pure []
  | .prf label seed rnd next => do
    let y ← Net.prf 12 label [seed] rnd
    let r ← Net.talk (next y)
    return .bytes y :: r
  | .dec ty ver x next => do
    let y ← Net.decrypt ty ver x
    let r ← Net.talk (next y)
    return .record y :: r
  | .enc ty ver x next => do
    let y ← Net.encrypt ty ver x
    let r ← Net.talk (next y)
    return .record y :: r

/-- What an engine may be told about an opened record.
(Specification or proof notion; models no line of /repo.) -/
abbrev View := Option (Int × Bytes) → Option (Int × Bytes)

/-- The record as it is. (Specification or proof notion; models no line of /repo.) -/
def plainly : View := id

/-- A record that opens to nothing is told as one that does not open.
(Specification or proof notion; models no line of /repo.) -/
def emptyFails : View
  | some (_, []) => none
  | y => y

/-- The same questions answered with the keys at hand: the answers, what the secrets
were used for, and the keys' state afterwards. A question to which the library has no
answer (undefined behaviour) ends it. (Specification or proof notion; models no line of /repo.) -/
def atHand (p : P) (see : View) (prf : Nat) : p.σ → Caller → List Ans × List Act × p.σ
  | st, .done => ([], [], st)
  | st, .prf label seed _ next =>
    let y := p.prf st prf 12 label seed
    let r := atHand p see prf st (next y)
    (.bytes y :: r.1, .prf (label ++ [0]) seed :: r.2.1, r.2.2)
  | st, .dec ty ver x next =>
    match p.dec st ty ver x with
    | .ok (st, y) =>
      let r := atHand p see prf st (next (see y))
      (.record (see y) :: r.1, .decrypt ty ver x :: r.2.1, r.2.2)
    | .ub => ([], [], st)
  | st, .enc ty ver x next =>
    match p.enc st ty ver x with
    | .ok (st, y) =>
      let r := atHand p see prf st (next (some y))
      (.record (some y) :: r.1, .encrypt ty ver x :: r.2.1, r.2.2)
    | .ub => ([], [], st)

/-- The questions are ones TLS asks, and the library's answers keep within the room the
engine has for them (BearSSL: 64 bytes before a record, 85 after it).
(Specification or proof notion; models no line of /repo.) -/
def Fits (p : P) (see : View) (prf : Nat) : p.σ → Caller → Prop
  | _, .done => True
  | st, .prf label seed _ next =>
    (label = b!"client finished" ∨ label = b!"server finished") ∧ seed.length ≤ 48 ∧
      Fits p see prf st (next (p.prf st prf 12 label seed))
  | st, .dec ty ver x next =>
    ty < 2 ^ 32 ∧ ver < 2 ^ 32 ∧ x.length ≤ 16709 ∧ ∃ st' y, p.dec st ty ver x = .ok (st', y) ∧
      (∀ raw z, y = some (raw, z) → -64 ≤ raw ∧ raw ≤ 64 ∧ z.length ≤ x.length ∧ raw + z.length ≤ 16709) ∧
      Fits p see prf st' (next (see y))
  | st, .enc ty ver x next =>
    ty < 2 ^ 32 ∧ ver < 2 ^ 32 ∧ x.length ≤ 16709 ∧ ∃ st' raw z, p.enc st ty ver x = .ok (st', raw, z) ∧
      (-64 ≤ raw ∧ raw ≤ 64 ∧ z.length ≤ x.length + 85 ∧ raw + z.length ≤ 16709) ∧
      Fits p see prf st' (next (some (raw, z)))

/-- No record opens to nothing. (Specification or proof notion; models no line of /repo.) -/
def Solid (p : P) (prf : Nat) : p.σ → Caller → Prop
  | _, .done => True
  | st, .prf label seed _ next => Solid p prf st (next (p.prf st prf 12 label seed))
  | st, .dec ty ver x next => ∀ st' y, p.dec st ty ver x = .ok (st', y) → (∀ raw, y ≠ some (raw, [])) ∧ Solid p prf st' (next y)
  | st, .enc ty ver x next => ∀ st' y, p.enc st ty ver x = .ok (st', y) → Solid p prf st' (next (some y))

/-- How the file of that name is read: the certificate chain in it or nothing, the
secret part that is kept, and the use of the file.
(Specification or proof notion; models no line of /repo.) -/
inductive Lookup {γ : Type} (cipher : Pem.Stream) (parse : Bytes → Bytes → Option γ) (ld : LoadEnv) (fn : Bytes) : Option γ → Option Bytes → Act → Prop where
  /-- the file can be read: its certificate lines are parsed, the others kept -/
  | found {nonce nc d pub sec} : Pem.load cipher nonce ld.key (ld.env (Path.Spec.undot (Path.Spec.collapse fn))) = .ok (some nc) →
      content (ld.env (Path.Spec.undot (Path.Spec.collapse fn))) = some d →
      Pem.Selected (Pem.usable d) pub (Pem.InCert (Pem.usable d)) → Pem.Selected (Pem.usable d) sec (fun i => ¬ Pem.InCert (Pem.usable d) i) →
      Lookup cipher parse ld fn (parse (Pem.text pub) fn) (some (Pem.text sec)) (.load (Path.Spec.undot (Path.Spec.collapse fn)) (some d))
  /-- it cannot -/
  | missing {nonce} : Pem.load cipher nonce ld.key (ld.env (Path.Spec.undot (Path.Spec.collapse fn))) = .ok none → 0 < ld.errno → ld.errno < 2 ^ 31 →
      Lookup cipher parse ld fn none none (.load (Path.Spec.undot (Path.Spec.collapse fn)) none)

/-- The names one after the other; the last file's secret part is what is held.
(Specification or proof notion; models no line of /repo.) -/
inductive Lookups {γ : Type} (cipher : Pem.Stream) (parse : Bytes → Bytes → Option γ) :
    List LoadEnv → List Bytes → Option Bytes → List (Option γ) → Option Bytes → List Act → Prop where
  | nil {k} : Lookups cipher parse [] [] k [] k []
  | cons {ld lds fn fns k k' k'' r rs a as} : fn.length < 1024 → 0 ∉ fn → Lookup cipher parse ld fn r k' a →
      Lookups cipher parse lds fns k' rs k'' as → Lookups cipher parse (ld :: lds) (fn :: fns) k (r :: rs) k'' (a :: as)

/-- The names put to the key process (the calls of tls_pipe.c:31-64). -/
def Net.certs {γ : Type} (allocOk : Nat → Bool) (parse : Bytes → Bytes → Option γ) : List Bytes → Net.M (List (Option γ))
  | [] => pure []
  | fn :: fns => do
    let c ← Net.getcert allocOk parse fn
    let cs ← Net.certs allocOk parse fns
    return c :: cs

/-- What a connection asks for. (Specification or proof notion; models no line of /repo.) -/
structure Conn where
  names : List Bytes
  curve : Nat
  /-- the signature: hash and key type, the digest, the room for it -/
  algo : Nat
  digest : Bytes
  max : Nat
  /-- the peer's point, and the session's parameters -/
  point : Bytes
  agreed : Agreement
  caller : Caller

/-- What it gets. (Specification or proof notion; models no line of /repo.) -/
structure Got (γ : Type) where
  certs : List (Option γ)
  point : Option Bytes
  sig : Option Bytes
  agreed : Option Unit
  answers : List Ans
  deriving Repr, DecidableEq

/-- The connection, with the key process asked (the calls of tls_pipe.c:31-407 in the order of a handshake; an engine
that is told of a failure would end the connection there). -/
def Net.connection {γ : Type} (allocOk : Nat → Bool) (parse : Bytes → Bytes → Option γ) (c : Conn) : Net.M (Got γ) := do
  let certs ← Net.certs allocOk parse c.names
  let point ← Net.mulgen c.curve
  let sig ← Net.dosign c.algo c.digest c.max
  let agreed ← Net.mul c.point c.agreed.sessionId c.agreed.version c.agreed.suite c.agreed.clientRandom c.agreed.serverRandom
  let answers ← Net.talk c.caller
  return ⟨certs, point, sig, agreed, answers⟩

end Key
