import Verif.Model.TrackerUrl
import Verif.Model.Magnet
import Verif.Model.Info

/-!
# Local ports and `host:port` texts: the model of `LocalPort` in `/repo/src/config.rs` and `InetAddr` in `/repo/src/dht/mod.rs`
-/

namespace Demag

/-- `u16::from_str` (std): the digits, most significant first, with checked arithmetic. -/
def parseU16Digits : Text → Nat → Option (BitVec 16)
  | [], acc => some (BitVec.ofNat 16 acc)
  | c :: cs, acc =>
    if c.isDigit then
      let acc := acc * 10 + (c.toNat - 48)
      if acc ≤ 65535 then parseU16Digits cs acc else none
    else none

/-- `u16::from_str` (std): a plus sign is skipped; without any digits it is an error. -/
def parseU16 (t : Text) : Option (BitVec 16) :=
  match t with
  | [] => none
  | c :: cs => if c = '+' then (if cs = [] then none else parseU16Digits cs 0) else parseU16Digits (c :: cs) 0

/-- `str::split_once` (std) with a character: at the first one. -/
def splitOnce (d : Char) : Text → Option (Text × Text)
  | [] => none
  | c :: cs => if c = d then some ([], cs) else (splitOnce d cs).map fun p => (c :: p.1, p.2)

/-- `str::rsplit_once` (std) with a character: at the last one. -/
def rsplitOnce (d : Char) (t : Text) : Option (Text × Text) :=
  (splitOnce d t.reverse).map fun p => (p.2.reverse, p.1.reverse)

/-- src/config.rs:151-155 `LocalPort`. -/
inductive LocalPort where
  | constant (p : BitVec 16)
  | range (low high : BitVec 16)
  deriving DecidableEq

/-- src/config.rs:157-164 `LocalPort::generate`.  `draw low high` is what `rng.random_range(low..=high)` (crate `rand`) gives;
it panics (`none`) for an empty range. -/
def LocalPort.generate (draw : BitVec 16 → BitVec 16 → BitVec 16) : LocalPort → Option (BitVec 16)
  | .constant p => some p
  | .range low high => if low.toNat ≤ high.toNat then some (draw low high) else none

/-- src/config.rs:166-173 `Default for LocalPort`. -/
def LocalPort.dflt : LocalPort := .range 1025 65535

/-- src/config.rs:175-207, 222-237: integers of any of serde's types, by `u16::try_from`. -/
def LocalPort.ofInt (i : Int) : Option LocalPort :=
  if 0 ≤ i ∧ i ≤ 65535 then some (.constant (BitVec.ofNat 16 i.toNat)) else none

/-- src/config.rs:239-261 `visit_str`. -/
def LocalPort.ofText (input : Text) : Option LocalPort :=
  if input.all Char.isDigit then (parseU16 input).map .constant
  else
    match splitOnce '-' input with
    | none => none
    | some (pre, post) =>
      match parseU16 (trim pre), parseU16 (trim post) with
      | some low, some high => if low.toNat ≤ high.toNat then some (.range low high) else none
      | _, _ => none

/-- `url::Host` (crate `url`). -/
inductive Host where
  | domain (s : Text)
  | ipv4 (ip : Ipv4)
  | ipv6 (ip : Ipv6)
  deriving DecidableEq

/-- src/dht/mod.rs:160-164 `InetAddr`. -/
structure InetAddr where
  host : Host
  port : BitVec 16
  deriving DecidableEq

/-- src/dht/mod.rs:194-205 `InetAddr::from_str`.  `parseHost` is `url::Host::parse`. -/
def InetAddr.parse (parseHost : Text → Option Host) (s : Text) : Option InetAddr :=
  match rsplitOnce ':' s with
  | none => none
  | some (host, port) =>
    match parseU16 port with
    | none => none
    | some port =>
      match parseHost host with
      | none => none
      | some host => some ⟨host, port⟩

/-- `SocketAddr::is_ipv4` (std). -/
def SockAddr.isIpv4 : SockAddr → Bool
  | .v4 _ => true
  | .v6 _ => false

/-- src/dht/mod.rs:169-191 `InetAddr::resolve`.  `lookup` is `tokio::net::lookup_host`: the addresses of a domain name with
that port, or an error. -/
def InetAddr.resolve (lookup : Text → BitVec 16 → Option (List SockAddr)) (useIpv6 : Bool) (a : InetAddr) : Option SockAddr :=
  match a.host with
  | .domain d =>
    match lookup d a.port with
    | some l => l.find? fun s => useIpv6 || s.isIpv4
    | none => none
  | .ipv4 ip => some (.v4 ⟨ip, a.port⟩)
  | .ipv6 ip => if useIpv6 then some (.v6 ⟨ip, a.port⟩) else none

end Demag
