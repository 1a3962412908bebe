import Verif.Spec.Digits
import Verif.Spec.InfoHash
import Verif.Model.PeerMsg

/-!
# Specification: peer wire protocol (BEP 3, 4, 5, 6, 9, 10)

Only data types of the model are used.
-/

namespace Demag.Spec

/-- A big-endian field of `w` bytes with value `v`. -/
def Field (w v : Nat) (bs : List UInt8) : Prop := bs.length = w ∧ beValue bs = v

/-- The layout of the core peer messages, without the length prefix. -/
inductive CoreLayout : CoreMessage → List UInt8 → Prop
  | keepalive : CoreLayout .keepalive []
  | choke : CoreLayout .choke [0]
  | unchoke : CoreLayout .unchoke [1]
  | interested : CoreLayout .interested [2]
  | notInterested : CoreLayout .notInterested [3]
  | have' {p f} : Field 4 p.toNat f → CoreLayout (.have' p) (4 :: f)
  | bitfield {b} : CoreLayout (.bitfield b) (5 :: b)
  | request {i b l f g h} : Field 4 i.toNat f → Field 4 b.toNat g → Field 4 l.toNat h →
      CoreLayout (.request i b l) (6 :: (f ++ g ++ h))
  | piece {i b d f g} : Field 4 i.toNat f → Field 4 b.toNat g → CoreLayout (.piece i b d) (7 :: (f ++ g ++ d))
  | cancel {i b l f g h} : Field 4 i.toNat f → Field 4 b.toNat g → Field 4 l.toNat h →
      CoreLayout (.cancel i b l) (8 :: (f ++ g ++ h))
  | port {p f} : Field 2 p.toNat f → CoreLayout (.port p) (9 :: f)
  | suggest {i f} : Field 4 i.toNat f → CoreLayout (.suggest i) (13 :: f)
  | haveAll : CoreLayout .haveAll [14]
  | haveNone : CoreLayout .haveNone [15]
  | reject {i b l f g h} : Field 4 i.toNat f → Field 4 b.toNat g → Field 4 l.toNat h →
      CoreLayout (.reject i b l) (16 :: (f ++ g ++ h))
  | allowedFast {i f} : Field 4 i.toNat f → CoreLayout (.allowedFast i) (17 :: f)
  | extended {m p f} : Field 1 m.toNat f → CoreLayout (.extended m p) (20 :: (f ++ p))

/-- The message ids in use. -/
def knownIds : List Nat := [0, 1, 2, 3, 4, 5, 6, 7, 8, 9, 13, 14, 15, 16, 17, 20]

/-- Number of bytes after the id: the least possible number, and whether it is the only possible one. -/
def bodyLength : Nat → Option (Nat × Bool)
  | 0 | 1 | 2 | 3 | 14 | 15 => some (0, true)
  | 4 | 13 | 17 => some (4, true)
  | 5 => some (0, false)
  | 6 | 8 | 16 => some (12, true)
  | 7 => some (8, false)
  | 9 => some (2, true)
  | 20 => some (1, false)
  | _ => none

/-- The layout of the BitTorrent handshake: header, reserved bytes, info hash, peer id. -/
def HandshakeLayout (s : Handshake) (bs : List UInt8) : Prop :=
  ∃ reserved, bs = ([19] ++ ascii "BitTorrent protocol") ++ reserved ++ s.infoHash.bytes ++ s.peerId.bytes ∧
    Field 8 s.extensions.bits.toNat reserved

/-- Where BEP 4, 5, 6, 10, 52 put the extension in the eight reserved bytes: byte index and mask. -/
def reservedPosition : Extension → Nat × Nat
  | .azureusMessaging => (0, 0x80)
  | .locationAware => (2, 0x08)
  | .bep10 => (5, 0x10)
  | .dht => (7, 0x01)
  | .xbtPex => (7, 0x02)
  | .fast => (7, 0x04)
  | .natTraversal => (7, 0x08)
  | .hybridV2 => (7, 0x10)

end Demag.Spec
