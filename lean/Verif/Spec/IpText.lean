import Verif.Spec.TrackerHttp

/-!
# Specification: IP addresses and socket addresses as texts

The usual texts of addresses (RFC 4291, section 2.2): four decimal numbers with dots for IPv4; for IPv6 eight groups of up to
four hexadecimal digits with colons, where `::` may stand for a run of zero groups and the last two groups may be written as
an IPv4 address.
-/

namespace Demag.Spec

/-- A number below 256 in decimal, without superfluous zeros. -/
def IsOctet (n : Nat) (t : List Char) : Prop := IsDecimal n t ∧ n < 256

/-- `t` is four octets with dots between them, and `n` their 32-bit value. -/
def IsDotted (t : List Char) (n : Nat) : Prop :=
  ∃ a b c d ta tb tc td, IsOctet a ta ∧ IsOctet b tb ∧ IsOctet c tc ∧ IsOctet d td ∧
    t = ta ++ '.' :: (tb ++ '.' :: (tc ++ '.' :: td)) ∧ n = ((a * 256 + b) * 256 + c) * 256 + d

/-- `t` is the text of an IPv4 address. -/
def IsIpv4Text (t : List Char) (ip : Ipv4) : Prop := IsDotted t ip.bits.toNat

/-- One to four hexadecimal digits, of either case. -/
def IsGroup (n : Nat) (t : List Char) : Prop :=
  t ≠ [] ∧ t.length ≤ 4 ∧ ∃ ds, t.mapM hexDigit = some ds ∧ ofDigits 16 ds = n

/-- One or more groups with colons between them. -/
inductive IsHexGroups : List Char → List Nat → Prop
  | one {n t} : IsGroup n t → IsHexGroups t [n]
  | more {n t ns u} : IsGroup n t → IsHexGroups u ns → IsHexGroups (t ++ ':' :: u) (n :: ns)

/-- One or more groups with colons between them, of which the last two may be written as an IPv4 address. -/
inductive IsGroups : List Char → List Nat → Prop
  | one {n t} : IsGroup n t → IsGroups t [n]
  | dotted {t n} : IsDotted t n → IsGroups t [n / 65536, n % 65536]
  | more {n t ns u} : IsGroup n t → IsGroups u ns → IsGroups (t ++ ':' :: u) (n :: ns)

/-- The eight groups of an IPv6 address: all of them, or some in front of `::` and some behind it, and zeros for the rest (at
least one). -/
def IsEightGroups (t : List Char) (segs : List Nat) : Prop :=
  (IsGroups t segs ∧ segs.length = 8) ∨
  ∃ front back ns ms, t = front ++ ':' :: ':' :: back ∧
    (front = [] ∧ ns = [] ∨ IsHexGroups front ns) ∧ (back = [] ∧ ms = [] ∨ IsGroups back ms) ∧
    ns.length + ms.length ≤ 7 ∧ segs = ns ++ List.replicate (8 - (ns.length + ms.length)) 0 ++ ms

/-- `t` is the text of an IPv6 address. -/
def IsIpv6Text (t : List Char) (ip : Ipv6) : Prop :=
  ∃ segs, IsEightGroups t segs ∧ ip.bits.toNat = ofDigits 65536 segs

/-- `n` zero groups, from index `i` on. -/
def ZerosAt (segs : List Nat) (i n : Nat) : Prop := i + n ≤ segs.length ∧ ∀ k, i ≤ k → k < i + n → segs[k]? = some 0

/-- A group as RFC 5952 wants it: lower case, without leading zeros. -/
def IsShortGroup (n : Nat) (t : List Char) : Prop :=
  IsGroup n t ∧ (∀ c ∈ t, ¬ ('A' ≤ c ∧ c ≤ 'Z')) ∧ (t.head? = some '0' → t = ['0'])

/-- Groups as RFC 5952 wants them, with colons between them. -/
inductive IsShortGroups : List Nat → List Char → Prop
  | nil : IsShortGroups [] []
  | one {n t} : IsShortGroup n t → IsShortGroups [n] t
  | more {n t ns u} : IsShortGroup n t → ns ≠ [] → IsShortGroups ns u → IsShortGroups (n :: ns) (t ++ ':' :: u)

/-- The text RFC 5952 recommends for an IPv6 address that has no IPv4 address in it: `::` stands for the longest run of two or more
zero groups, the first one of them if there are several of the same length. -/
def IsRecommended (segs : List Nat) (t : List Char) : Prop :=
  ((¬ ∃ i, ZerosAt segs i 2) ∧ IsShortGroups segs t) ∨
  ∃ i n front back, 2 ≤ n ∧ ZerosAt segs i n ∧ (∀ j m, ZerosAt segs j m → m ≤ n ∧ (m = n → i ≤ j)) ∧
    IsShortGroups (segs.take i) front ∧ IsShortGroups (segs.drop (i + n)) back ∧ t = front ++ ':' :: ':' :: back

/-- `t` is the text of an IP address. -/
def IsIpText (t : List Char) : IpAddr → Prop
  | .v4 ip => IsIpv4Text t ip
  | .v6 ip => IsIpv6Text t ip

/-- A decimal number below `bound`, with any number of leading zeros. -/
def IsNumber (bound : Nat) (n : Nat) (t : List Char) : Prop :=
  t ≠ [] ∧ (∀ c ∈ t, c.isDigit = true) ∧ ofDigits 10 (t.map digitValue) = n ∧ n < bound

/-- `t` is the text of a socket address with this IPv6 scope ID: IPv4 addresses with a colon and the port, IPv6 addresses in
brackets, perhaps with `%` and the scope ID, and then a colon and the port. -/
def IsSockText (t : List Char) : SockAddr → Nat → Prop
  | .v4 a, scope => scope = 0 ∧ ∃ ti tp, t = ti ++ ':' :: tp ∧ IsIpv4Text ti a.ip ∧ IsNumber 65536 a.port.toNat tp
  | .v6 a, scope => ∃ ti ts tp, t = '[' :: (ti ++ ts ++ ']' :: ':' :: tp) ∧ IsIpv6Text ti a.ip ∧
      (ts = [] ∧ scope = 0 ∨ ∃ u, ts = '%' :: u ∧ IsNumber (2 ^ 32) scope u) ∧ IsNumber 65536 a.port.toNat tp

end Demag.Spec
