import Verif.Num.Spec
import Verif.Proxy.Model
/-
What a PROXY v1 header is, and what is assumed of inet_pton/inet_ntop.
-/
namespace Proxy

/-- Characters of address texts: hexadecimal digits, '.', ':'. -/
def IpChar (b : Byte) : Prop :=
  (48 ≤ b.toNat ∧ b.toNat ≤ 57) ∨ (65 ≤ b.toNat ∧ b.toNat ≤ 70) ∨
  (97 ≤ b.toNat ∧ b.toNat ≤ 102) ∨ b = c! '.' ∨ b = c! ':'

instance (b : Byte) : Decidable (IpChar b) := by unfold IpChar; infer_instance

/-- The assumptions on the C library: printing and parsing are inverse, texts
consist of address characters and fit INET6_ADDRSTRLEN (46 with the NUL). -/
structure IpCodec.Lawful (C : IpCodec) : Prop where
  rt4 : ∀ a : Bytes, a.length = 4 → C.pton4 (C.ntop4 a) = some a
  rt6 : ∀ a : Bytes, a.length = 16 → C.pton6 (C.ntop6 a) = some a
  len4 : ∀ a : Bytes, a.length = 4 → (C.ntop4 a).length ≤ 45
  len6 : ∀ a : Bytes, a.length = 16 → (C.ntop6 a).length ≤ 45
  in4 : ∀ s a, C.pton4 s = some a → a.length = 4 ∧ ∀ b ∈ s, IpChar b
  in6 : ∀ s a, C.pton6 s = some a → a.length = 16 ∧ ∀ b ∈ s, IpChar b

/-- The value of a two-byte port. -/
def portVal (p : Byte × Byte) : Nat := p.1.toNat * 256 + p.2.toNat

/-- `t` is the decimal text of port `p`. -/
def PortOf (t : Bytes) (p : Byte × Byte) : Prop := Num.Spec.Numeral t ∧ Num.Spec.value t = portVal p

/-- Address text `t` of the announced family denotes the 16-byte address `a`. -/
inductive AddrOf (C : IpCodec) : Bool → Bytes → Bytes → Prop where
  | v4 {t a} : C.pton4 t = some a → AddrOf C false t ([0,0,0,0,0,0,0,0,0,0,255,255] ++ a)
  | v6 {t a} : C.pton6 t = some a → AddrOf C true t a

/-- The protocol word of a family. -/
def word : Bool → Bytes
  | false => b!"PROXY TCP4 "
  | true => b!"PROXY TCP6 "

/-- The header grammar of the specification (the text without its final LF):
"PROXY TCPx src dst sport dport\r", single spaces. -/
inductive Strict (C : IpCodec) : Bytes → Ends → Prop where
  | tcp {six src dst sp dp e} :
      AddrOf C six src e.remoteip → AddrOf C six dst e.localip →
      PortOf sp e.remoteport → PortOf dp e.localport →
      Strict C (word six ++ src ++ b!" " ++ dst ++ b!" " ++ sp ++ b!" " ++ dp ++ b!"\r") e

/-- What the code accepts: "PROXY UNKNOWN" followed by anything, or the strict form with
a NUL allowed in place of each separating space and, after the last port, either
nothing or anything that starts with CR or NUL. -/
inductive Loose (C : IpCodec) : Bytes → Ends → Prop where
  | unknown {t} : Loose C (b!"PROXY UNKNOWN" ++ t) ⟨List.replicate 16 0, (0, 0), List.replicate 16 0, (0, 0)⟩
  | tcp {six src dst sp dp e s1 s2 s3 tail} :
      AddrOf C six src e.remoteip → AddrOf C six dst e.localip →
      PortOf sp e.remoteport → PortOf dp e.localport →
      (s1 = c! ' ' ∨ s1 = 0) → (s2 = c! ' ' ∨ s2 = 0) → (s3 = c! ' ' ∨ s3 = 0) →
      (tail = [] ∨ ∃ x t, tail = x :: t ∧ (x = c! '\r' ∨ x = 0)) →
      Loose C (word six ++ (src ++ s1 :: (dst ++ s2 :: (sp ++ s3 :: (dp ++ tail))))) e

end Proxy
