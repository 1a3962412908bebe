import Verif.Spec.Digits
import Verif.Model.Compact

/-!
# Specification: compact address formats (BEP 5, 7, 23)

Only the data types (`SockV4`, `NodeT`, …) of the model are used.
-/

namespace Demag.Spec

/-- `bs` is the compact form of the IPv4 address `a`: 4 bytes of address, 2 bytes of port, network byte order. -/
def IsCompact4 (a : SockV4) (bs : List UInt8) : Prop :=
  bs.length = 6 ∧ beValue (bs.take 4) = a.ip.bits.toNat ∧ beValue (bs.drop 4) = a.port.toNat

/-- `bs` is the compact form of the IPv6 address `a`: 16 bytes of address, 2 bytes of port. -/
def IsCompact6 (a : SockV6) (bs : List UInt8) : Prop :=
  bs.length = 18 ∧ beValue (bs.take 16) = a.ip.bits.toNat ∧ beValue (bs.drop 16) = a.port.toNat

/-- `bs` is the compact form of the socket address `a`. -/
def IsCompact : SockAddr → List UInt8 → Prop
  | .v4 a => IsCompact4 a
  | .v6 a => IsCompact6 a

/-- Compact node info (BEP 5): 20 bytes of node id followed by the compact address. -/
def IsCompactNode4 (n : NodeT Ipv4) (bs : List UInt8) : Prop :=
  bs.take 20 = n.id.bytes ∧ IsCompact4 ⟨n.ip, n.port⟩ (bs.drop 20)

/-- Compact node info (BEP 32): 20 bytes of node id followed by the compact IPv6 address. -/
def IsCompactNode6 (n : NodeT Ipv6) (bs : List UInt8) : Prop :=
  bs.take 20 = n.id.bytes ∧ IsCompact6 ⟨n.ip, n.port⟩ (bs.drop 20)

/-- `bs` is the concatenation of encodings (according to `R`) of the elements of `xs`, in order. -/
def IsConcat {α : Type} (R : α → List UInt8 → Prop) : List α → List UInt8 → Prop
  | [], bs => bs = []
  | x :: xs, bs => ∃ b r, bs = b ++ r ∧ R x b ∧ IsConcat R xs r

end Demag.Spec
