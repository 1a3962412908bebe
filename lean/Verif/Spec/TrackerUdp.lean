import Verif.Spec.Peer
import Verif.Spec.Compact
import Verif.Model.TrackerUdp

/-!
# Specification: the UDP tracker protocol (BEP 15) and its URL options (BEP 41)

Only data types of the model are used: announcements, addresses, events.
-/

namespace Demag.Spec

/-- The field of `w` bytes at an offset has the big-endian value `v`. -/
def At (bs : List UInt8) (off w v : Nat) : Prop := Field w v ((bs.drop off).take w)

/-- BEP 15, connect request. -/
def IsConnectRequest (xid : Nat) (bs : List UInt8) : Prop :=
  bs.length = 16 ∧ At bs 0 8 0x41727101980 ∧ At bs 8 4 0 ∧ At bs 12 4 xid

/-- The number of an event in BEP 15: none, completed, started, stopped. -/
def eventNumber : AnnounceEvent → Nat
  | .announce => 0
  | .completed => 1
  | .started => 2
  | .stopped => 3

/-- A reader for the options of BEP 41: option 0 ends the options, option 1 is a no-op, the other options have a length
byte and that many bytes of data; the data of all options 2, concatenated, is the URL data. -/
def urlDataOptions : List UInt8 → Option (List UInt8)
  | [] => some []
  | t :: r =>
    if t = 0 then some []
    else if t = 1 then urlDataOptions r
    else
      match r with
      | [] => none
      | n :: r =>
        if n.toNat ≤ r.length then
          (urlDataOptions (r.drop n.toNat)).map ((if t = 2 then r.take n.toNat else []) ++ ·)
        else none
termination_by bs => bs.length
decreasing_by
  all_goals simp only [List.length_cons, List.length_drop] <;> omega

/-- BEP 15, announce request: the 98 bytes of the header and the options of BEP 41. -/
structure IsAnnounceRequest (cid xid : Nat) (a : Announcement) (urldata : List UInt8) (bs : List UInt8) : Prop where
  length : 98 ≤ bs.length
  connectionId : At bs 0 8 cid
  action : At bs 8 4 1
  transactionId : At bs 12 4 xid
  infoHash : (bs.drop 16).take 20 = a.infoHash.bytes
  peerId : (bs.drop 36).take 20 = a.peerId.bytes
  downloaded : At bs 56 8 a.downloaded.toNat
  left : At bs 64 8 a.left.toNat
  uploaded : At bs 72 8 a.uploaded.toNat
  event : At bs 80 4 (eventNumber a.event)
  ip : At bs 84 4 0
  key : At bs 88 4 a.key.toNat
  numWant : At bs 92 4 a.numwant.toNat
  port : At bs 96 2 a.port.toNat
  options : urlDataOptions (bs.drop 98) = some urldata

/-- BEP 15, connect response: anything may follow the 16 bytes. -/
def IsConnectResponse (xid cid : Nat) (bs : List UInt8) : Prop :=
  At bs 0 4 0 ∧ At bs 4 4 xid ∧ At bs 8 8 cid

/-- BEP 15, announce response with IPv4 or IPv6 addresses up to the end of the packet. -/
def IsAnnounceResponse (ipv6 : Bool) (xid interval leechers seeders : Nat) (addrs : List SockAddr) (bs : List UInt8) : Prop :=
  At bs 0 4 1 ∧ At bs 4 4 xid ∧ At bs 8 4 interval ∧ At bs 12 4 leechers ∧ At bs 16 4 seeders ∧
    IsConcat IsCompact addrs (bs.drop 20) ∧ ∀ a ∈ addrs, (∃ v, a = .v6 v) ↔ ipv6 = true

/-- BEP 15, error response. -/
def IsErrorResponse (xid : Nat) (msg : List UInt8) (bs : List UInt8) : Prop :=
  At bs 0 4 3 ∧ At bs 4 4 xid ∧ bs.drop 8 = msg

/-- The packet most recently sent, an output later. -/
def sentAfter (acc : Option (List UInt8)) : UdpOutput → Option (List UInt8)
  | .transmit bs => some bs
  | _ => acc

/-- The packet most recently sent. -/
def lastSent (tr : UdpTrace) : Option (List UInt8) := (tr.flatMap (·.2)).foldl sentAfter none

/-- The announcement most recently asked for, an event later. -/
def callAfter (acc : Option Announcement) : UdpInput → Option Announcement
  | .call a => some a
  | _ => acc

/-- The announcement most recently asked for. -/
def lastCall (tr : UdpTrace) : Option Announcement := (tr.map (·.1.input)).foldl callAfter none

/-- The times at which the current request has been sent, an output at time `t` later. -/
def timesAfter (t : Nat) (acc : List Nat) : UdpOutput → List Nat
  | .request _ => []
  | .transmit _ => acc ++ [t]
  | _ => acc

/-- The times at which the current request has been sent. -/
def sendTimes (tr : UdpTrace) : List Nat := tr.foldl (fun acc x => x.2.foldl (timesAfter x.1.time) acc) []

/-- The time to wait for an answer after having sent a request for the `k`-th time, counted from 0 (BEP 15). -/
def backoff (k : Nat) : Nat := 15 * 2 ^ min k 8

/-- At time `t`, in answer to a connect request that was the last packet sent, the tracker gave out the connection ID `cid`. -/
def GivenAt (tr : UdpTrace) (t cid : Nat) : Prop :=
  ∃ pre e out post bs req xid, tr = pre ++ (e, out) :: post ∧ e.time = t ∧ e.input = .packet bs ∧
    lastSent pre = some req ∧ IsConnectRequest xid req ∧ IsConnectResponse xid cid bs

end Demag.Spec

namespace Demag.Spec

/-- The events are in the order of their times. -/
def Chronological (tr : UdpTrace) : Prop := tr.Pairwise (fun x y => x.1.time ≤ y.1.time)

/-- Each time is followed by the next one no earlier than after the waiting time. -/
def Spaced (ts : List Nat) : Prop :=
  ∀ i a b, ts[i]? = some a → ts[i + 1]? = some b → a + backoff i * second ≤ b

end Demag.Spec
