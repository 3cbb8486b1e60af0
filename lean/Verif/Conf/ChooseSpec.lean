import Verif.Conf.Spec
import Verif.Conf.Choose
import Verif.Name.Spec
import Verif.Path.Spec
/-
What the choice of a certificate and a cipher suite should be.
-/
namespace Conf.Spec
open Name.Spec Path.Spec

/-- A name that may be looked up. -/
def Lookup (sn : Bytes) : Prop := sn ≠ [] ∧ ∃ ls, NameOf sn ls ∧ (∀ l ∈ ls, Label l) ∧ (wire ls).length ≤ 255

/-- The file that a source stands for: the configured file, or the one named like the server in the
configured directory; sanitised. -/
inductive FileFor (sn : Option Bytes) : Bytes × Bool → Bytes → Prop where
  | file {f} : FileFor sn (f, false) (undot (collapse f))
  | dir {d n} : sn = some n → Lookup n → FileFor sn (d, true) (undot (collapse (d ++ c! '/' :: n)))

/-- Length of the name before it is sanitised. -/
def rawLength (sn : Option Bytes) : Bytes × Bool → Nat
  | (f, false) => f.length
  | (d, true) => d.length + 1 + (sn.getD []).length

/-- The suite can be used with a key of this type: ECDHE signed by this kind of key. -/
def Fits (keytype : Nat) (s : Nat × Nat) : Prop :=
  (s.2 / 2 ^ 12 = 2 ∧ keytype = 2) ∨ (s.2 / 2 ^ 12 = 1 ∧ keytype = 1)

/-- The hash functions the client accepts in signatures of this type, strongest first. -/
def clientHashes (keytype hashes : Nat) : List Nat :=
  [6, 5, 4, 2].filter (fun h => hashes.testBit (if keytype = 2 then h + 8 else h))

/-- The algorithm identifier of a signature: SHA-1 or the MD5/SHA-1 pair before TLS 1.2, then the
strongest the client accepts. -/
def algo (keytype hashes version : Nat) : Nat :=
  if version < 0x0303 then 0xFF00 + (if keytype = 2 then 2 else 0)
  else 0xFF00 + ((clientHashes keytype hashes).head?).getD 0

/-- What one source leads to. `request` is the file asked for. `room` is false when there is no memory or
the name is too long. -/
inductive Outcome {γ} (H : Hello) (getcert : Bytes → Answer γ) (room last : Bool) (src : Bytes × Bool) :
    (request : Option Bytes) → Next γ → Prop where
  | noName : src.2 = true → (¬ ∃ n, H.name = some n ∧ Lookup n) → Outcome H getcert room last src none .cont
  | noRoom : room = false → Outcome H getcert room last src none .cont
  | missing {fn} : room = true → FileFor H.name src fn → getcert fn = .fail 2 → src.2 = true → last = false →
      Outcome H getcert room last src (some fn) .cont
  | failed {fn e} : room = true → FileFor H.name src fn → getcert fn = .fail e → (src.2 = false ∨ e ≠ 2 ∨ last = true) →
      Outcome H getcert room last src (some fn) .bad
  | unsuited {fn k c} : room = true → FileFor H.name src fn → getcert fn = .chain k c → (∀ s ∈ H.suites, ¬ Fits k s) →
      Outcome H getcert room last src (some fn) .cont
  | suited {fn k c pre s post} : room = true → FileFor H.name src fn → getcert fn = .chain k c →
      H.suites = pre ++ s :: post → (∀ x ∈ pre, ¬ Fits k x) → Fits k s →
      Outcome H getcert room last src (some fn) (.ok ⟨c, s.1, algo k H.hashes H.version⟩)

/-- What the sources lead to together: the first that does not say "go on" decides. -/
inductive Decides {γ} (H : Hello) (alloc : Nat → Bool) (getcert : Nat → Bytes → Answer γ) :
    List (Bytes × Bool) → List Bytes → Option (Choice γ) → Prop where
  | none : Decides H alloc getcert [] [] none
  | stop {src rest req} : Outcome H (getcert rest.length) (alloc rest.length && decide (rawLength H.name src < 1024)) rest.isEmpty src req .bad →
      Decides H alloc getcert (src :: rest) req.toList none
  | use {src rest req c} : Outcome H (getcert rest.length) (alloc rest.length && decide (rawLength H.name src < 1024)) rest.isEmpty src req (.ok c) →
      Decides H alloc getcert (src :: rest) req.toList (some c)
  | next {src rest req reqs r} : Outcome H (getcert rest.length) (alloc rest.length && decide (rawLength H.name src < 1024)) rest.isEmpty src req .cont →
      Decides H alloc getcert rest reqs r → Decides H alloc getcert (src :: rest) (req.toList ++ reqs) r

end Conf.Spec
