import Verif.Spec.MseStream
import Verif.Spec.Connect

/-! # Specification: an encrypted conversation on the network -/

namespace Demag.Spec

/-- What an encrypted attempt may put on the network (`wire`) when `out` is what it says: nothing, packet 1, or packets 1 and 3 followed by
`out` hidden with the keystream of the initiator from behind packet 3 on.  `a` is the private key, `Y` the number the peer sent. -/
inductive Hidden (H : List UInt8 → List UInt8) (a : Nat) (padA skey : List UInt8) (padcLen : Nat) (out : List UInt8) : List UInt8 → Prop
  | nothing : out = [] → Hidden H a padA skey padcLen out []
  | greeted (A : List UInt8) : out = [] → Sent96 (2 ^ a % msePrime) A → Hidden H a padA skey padcLen out (A ++ padA)
  | talked (A S packet3 : List UInt8) (Y : Nat) : Sent96 (2 ^ a % msePrime) A → Sent96 (Y ^ a % msePrime) S →
      Packet3 H S skey 2 padcLen packet3 →
      Hidden H a padA skey padcLen out
        (A ++ padA ++ packet3 ++ xorAt (mseStream (H (keyAText ++ S ++ skey))) (16 + padcLen) out)

/-- What the peer sends when it follows the protocol: its public key and padding `padB`, in pieces `c1`; after the time for packet 2 the
encrypted packet 4 with padding `padD` and behind it the encryption of `app`, in pieces `c2`; then what `tail` says.  `S` is the shared
secret. -/
structure Responder (H : List UInt8 → List UInt8) (skey : List UInt8) (b : Nat) (S padB padD app : List UInt8)
    (c1 c2 : List (List UInt8)) : Prop where
  key : ∃ B, Sent96 (2 ^ b % msePrime) B ∧ c1.flatten = B ++ padB
  short : padB.length ≤ 512
  answer : ∃ sel len, sel.length = 4 ∧ beValue sel = 2 ∧ len.length = 2 ∧ beValue len = padD.length ∧
    c2.flatten = xorAt (mseStream (H (keyBText ++ S ++ skey))) 0 (List.replicate 8 0 ++ sel ++ len ++ padD ++ app)
  pieces : [] ∉ c1 ∧ [] ∉ c2

/-- The reads of a connection to such a peer. -/
def responderReads (c1 c2 : List (List UInt8)) (tail : List HandshakeRead) : List HandshakeRead :=
  c1.map .data ++ .timeout :: (c2.map .data ++ tail)

/-- How the data of a connection ends. -/
def Closes : List HandshakeRead → Ending → Prop
  | tail, .stall => tail = []
  | tail, .eof => tail = [.eof]
  | tail, .ioError => tail = [.failed]

end Demag.Spec
