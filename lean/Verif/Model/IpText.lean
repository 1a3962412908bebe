import Verif.Model.TrackerUrl
import Verif.Model.Info

/-!
# IP addresses as texts: the model of std's `Display` for `Ipv4Addr`, `Ipv6Addr` and `IpAddr`

The code prints addresses in `/repo/src/peer/mod.rs:483-490` and `/repo/src/torrent.rs:315-328`.
-/

namespace Demag

/-- A digit in lower-case hexadecimal. -/
def hexChar (d : Nat) : Char := if d < 10 then Char.ofNat (48 + d) else Char.ofNat (87 + d)

/-- `{:x}` (std) of an unsigned integer. -/
def hexNat (n : Nat) : Text := if n < 16 then [hexChar n] else hexNat (n / 16) ++ [hexChar (n % 16)]
termination_by n

/-- Texts with a separator between them: the first, and then every other one behind a separator. -/
def sepBy (sep : Char) : List Text → Text
  | [] => []
  | t :: ts => t ++ ts.flatMap fun u => sep :: u

/-- std `Display for Ipv4Addr`. -/
def ipv4Text (ip : Ipv4) : Text := sepBy '.' (ip.octets.map fun b => decimal b.toNat)

/-- `Ipv6Addr::segments` (std). -/
def Ipv6.segments (ip : Ipv6) : List Nat := (List.range 8).map fun i => ip.bits.toNat / 65536 ^ (7 - i) % 65536

/-- std `Display for Ipv6Addr`: the search for the longest run of zero segments, with the index, the current run and the
longest run (start and length). -/
def zeroRun : List Nat → Nat → Nat × Nat → Nat × Nat → Nat × Nat
  | [], _, _, longest => longest
  | s :: ss, i, current, longest =>
    if s = 0 then
      let current := (if current.2 = 0 then i else current.1, current.2 + 1)
      zeroRun ss (i + 1) current (if current.2 > longest.2 then current else longest)
    else zeroRun ss (i + 1) (0, 0) longest

/-- std `Ipv6Addr::to_ipv4_mapped`: the last four octets behind five zero segments and `ffff`. -/
def Ipv6.toIpv4Mapped (ip : Ipv6) : Option Ipv4 :=
  if ip.segments.take 6 = [0, 0, 0, 0, 0, 0xffff] then some ⟨BitVec.ofNat 32 ip.bits.toNat⟩ else none

/-- std `Display for Ipv6Addr`. -/
def ipv6Text (ip : Ipv6) : Text :=
  match ip.toIpv4Mapped with
  | some v4 => "::ffff:".toList ++ ipv4Text v4
  | none =>
    let segs := ip.segments
    let z := zeroRun segs 0 (0, 0) (0, 0)
    if z.2 > 1 then
      sepBy ':' ((segs.take z.1).map hexNat) ++ "::".toList ++ sepBy ':' ((segs.drop (z.1 + z.2)).map hexNat)
    else sepBy ':' (segs.map hexNat)

/-- std `Display for IpAddr`. -/
def ipText : IpAddr → Text
  | .v4 ip => ipv4Text ip
  | .v6 ip => ipv6Text ip

end Demag
