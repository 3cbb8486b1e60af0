import Verif.Num.Spec
/-
Specification of host:port strings, independent of the code.
-/
namespace HostPort.Spec
open Num.Spec

/-- A canonical decimal port number. -/
def PortText (p : Bytes) : Prop := Numeral p ∧ value p ≤ 65535

/-- `s` contains none of the given bytes. -/
def Free (s : Bytes) (cs : List Byte) : Prop := ∀ b ∈ s, b ∉ cs

instance (s : Bytes) (cs : List Byte) : Decidable (Free s cs) := by unfold Free; infer_instance

/-- `Parts ip6 s host port`: the string `s` names `host` and (possibly empty,
meaning absent) `port`. `ip6 h` says that `h` is an IPv6 literal. -/
inductive Parts (ip6 : Bytes → Bool) : (s host port : Bytes) → Prop where
  /-- `host` -/
  | host {h} : h ≠ [] → Free h [c! ':', c! ']'] → h.head? ≠ some (c! '[') → Parts ip6 h h []
  /-- `host:port` -/
  | hostPort {h p} : h ≠ [] → Free h [c! ':', c! ']'] → h.head? ≠ some (c! '[') → PortText p →
      Parts ip6 (h ++ c! ':' :: p) h p
  /-- an IPv6 literal without brackets (at least two colons) -/
  | ip6 {h} : 2 ≤ h.count (c! ':') → Free h [c! ']'] → h.head? ≠ some (c! '[') →
      ip6 h = true → Parts ip6 h h []
  /-- `[ipv6]` -/
  | bracketed {h} : h ≠ [] → Free h [c! '[', c! ']'] → ip6 h = true →
      Parts ip6 (c! '[' :: h ++ [c! ']']) h []
  /-- `[ipv6]:port` -/
  | bracketedPort {h p} : h ≠ [] → Free h [c! '[', c! ']'] → ip6 h = true → PortText p →
      Parts ip6 (c! '[' :: h ++ c! ']' :: c! ':' :: p) h p

/-- The purely syntactic half of `Parts`: `s` splits into host text `h` and port
text `p` (possibly empty), not yet validated; `lit` says that the form used is
reserved for IPv6 literals. -/
inductive SplitOf : (s h p : Bytes) → (lit : Bool) → Prop where
  | host {h} : h ≠ [] → Free h [c! ':', c! ']'] → h.head? ≠ some (c! '[') → SplitOf h h [] false
  | hostPort {h p} : h ≠ [] → Free h [c! ':', c! ']'] → h.head? ≠ some (c! '[') → p ≠ [] →
      Free p [c! ':', c! ']'] → SplitOf (h ++ c! ':' :: p) h p false
  | ip6 {h} : 2 ≤ h.count (c! ':') → Free h [c! ']'] → h.head? ≠ some (c! '[') →
      SplitOf h h [] true
  | bracketed {h} : h ≠ [] → Free h [c! '[', c! ']'] →
      SplitOf (c! '[' :: h ++ [c! ']']) h [] true
  | bracketedPort {h p} : h ≠ [] → Free h [c! '[', c! ']'] → p ≠ [] → Free p [c! ']'] →
      SplitOf (c! '[' :: h ++ c! ']' :: c! ':' :: p) h p true

end HostPort.Spec
