import Verif.Model.IpText
import Verif.Model.Tracker

/-!
# Reading IP addresses and socket addresses: the model of std's `FromStr` for `IpAddr` and `SocketAddr`

The code reads addresses in `/repo/src/peer/mod.rs:64-75` (the argument of `query-peer`) and
`/repo/src/peer/mod.rs:113-158` (peers of an HTTP tracker), and prints them in `/repo/src/main.rs:308` and
`/repo/src/main.rs:330` (plain output).  The functions model `core::net::parser` (std): a parser takes the text that is left
and returns what it read with the text left after it; one that fails leaves the text as it was (`read_atomically`).
-/

namespace Demag

/-- `char::to_digit` (std). -/
def toDigit (radix : Nat) (c : Char) : Option Nat :=
  let d :=
    if '0' ≤ c ∧ c ≤ '9' then c.toNat - 48
    else if 'a' ≤ c ∧ c ≤ 'z' then c.toNat - 87
    else if 'A' ≤ c ∧ c ≤ 'Z' then c.toNat - 55
    else radix
  if d < radix then some d else none

/-- `Parser::read_number` (std): all digits that follow.  Simplified: the value is compared with the bound once at the end;
std's checks after every digit are equivalent as more digits never make it smaller. -/
def readNumber (radix : Nat) (maxDigits : Option Nat) (allowZeroPrefix : Bool) (bound : Nat) (s : Text) : Option (Nat × Text) :=
  let ds := s.takeWhile fun c => (toDigit radix c).isSome
  let n := ds.foldl (fun r c => r * radix + (toDigit radix c).getD 0) 0
  if ds.isEmpty then none
  else if maxDigits.any (ds.length > ·) then none
  else if !allowZeroPrefix && ds.head? == some '0' && decide (ds.length > 1) then none
  else if n < bound then some (n, s.dropWhile fun c => (toDigit radix c).isSome)
  else none

/-- `Parser::read_given_char` (std). -/
def readGivenChar (c : Char) : Text → Option Text
  | [] => none
  | x :: s => if x = c then some s else none

/-- `Parser::read_ipv4_addr` (std): the value of the four octets. -/
def readIpv4 (s : Text) : Option (Nat × Text) := do
  let (a, s) ← readNumber 10 (some 3) false 256 s
  let s ← readGivenChar '.' s
  let (b, s) ← readNumber 10 (some 3) false 256 s
  let s ← readGivenChar '.' s
  let (c, s) ← readNumber 10 (some 3) false 256 s
  let s ← readGivenChar '.' s
  let (d, s) ← readNumber 10 (some 3) false 256 s
  return (((a * 256 + b) * 256 + c) * 256 + d, s)

/-- `Parser::read_separator` (std) with `:`, for the first item or a later one. -/
def readSeparator (first : Bool) (s : Text) : Option Text := if first then some s else readGivenChar ':' s

/-- `read_groups` in `Parser::read_ipv6_addr` (std), with the number of groups there is room for, and whether none was read
yet: the groups, whether an IPv4 address ended them, and the text left. -/
def readGroups : Nat → Bool → Text → List Nat × Bool × Text
  | 0, _, s => ([], false, s)
  | k + 1, first, s =>
    match (if 0 < k then (readSeparator first s).bind readIpv4 else none) with
    | some (v, r) => ([v / 65536, v % 65536], true, r)
    | none =>
      match (readSeparator first s).bind (readNumber 16 (some 4) true 65536) with
      | none => ([], false, s)
      | some (g, r) =>
        let (gs, v4, r') := readGroups k false r
        (g :: gs, v4, r')

/-- `Parser::read_ipv6_addr` (std): the eight groups. -/
def readIpv6 (s : Text) : Option (List Nat × Text) :=
  let (head, headIpv4, s) := readGroups 8 true s
  if head.length = 8 then some (head, s)
  else if headIpv4 then none
  else do
    let s ← readGivenChar ':' s
    let s ← readGivenChar ':' s
    let (tail, _, s) := readGroups (8 - (head.length + 1)) true s
    return (head ++ List.replicate (8 - head.length - tail.length) 0 ++ tail, s)

/-- `Ipv6Addr` from its groups (std `From<[u16; 8]>`). -/
def Ipv6.ofSegments (segs : List Nat) : Ipv6 := ⟨BitVec.ofNat 128 (segs.foldl (fun acc g => acc * 65536 + g) 0)⟩

/-- `Parser::read_ip_addr` (std). -/
def readIp (s : Text) : Option (IpAddr × Text) :=
  match readIpv4 s with
  | some (n, r) => some (.v4 ⟨BitVec.ofNat 32 n⟩, r)
  | none => (readIpv6 s).map fun (segs, r) => (.v6 (Ipv6.ofSegments segs), r)

/-- `IpAddr::from_str` (std). -/
def ipFromStr (s : Text) : Option IpAddr :=
  match readIp s with
  | some (ip, []) => some ip
  | _ => none

/-- `Parser::read_port` (std). -/
def readPort (s : Text) : Option (Nat × Text) := (readGivenChar ':' s).bind (readNumber 10 none true 65536)

/-- `Parser::read_scope_id` (std), 0 if there is none. -/
def readScopeId (s : Text) : Nat × Text :=
  match (readGivenChar '%' s).bind (readNumber 10 none true (2 ^ 32)) with
  | some (n, r) => (n, r)
  | none => (0, s)

/-- `Parser::read_socket_addr_v4` (std). -/
def readSockV4 (s : Text) : Option (SockV4 × Text) := do
  let (n, s) ← readIpv4 s
  let (port, s) ← readPort s
  return (⟨⟨BitVec.ofNat 32 n⟩, BitVec.ofNat 16 port⟩, s)

/-- `Parser::read_socket_addr_v6` (std): the address and its scope ID. -/
def readSockV6 (s : Text) : Option ((SockV6 × Nat) × Text) := do
  let s ← readGivenChar '[' s
  let (segs, s) ← readIpv6 s
  let (scope, s) := readScopeId s
  let s ← readGivenChar ']' s
  let (port, s) ← readPort s
  return ((⟨Ipv6.ofSegments segs, BitVec.ofNat 16 port⟩, scope), s)

/-- `SocketAddr::from_str` (std), with the scope ID, which `SockAddr` does not keep. -/
def sockFromStr (s : Text) : Option (SockAddr × Nat) :=
  match readSockV4 s with
  | some (a, r) => if r = [] then some (.v4 a, 0) else none
  | none =>
    match readSockV6 s with
    | some ((a, scope), r) => if r = [] then some (.v6 a, scope) else none
    | none => none

/-- std `Display for SocketAddr`, for a scope ID of 0. -/
def sockText : SockAddr → Text
  | .v4 a => ipv4Text a.ip ++ ':' :: decimal a.port.toNat
  | .v6 a => '[' :: (ipv6Text a.ip ++ ']' :: ':' :: decimal a.port.toNat)

/-- src/peer/mod.rs:64-75 `Peer::from_str`.  Simplified: the scope ID is dropped. -/
def Peer.fromStr (s : Text) : Option Peer := (sockFromStr s).map fun (a, _) => ⟨a, none, false⟩

end Demag
