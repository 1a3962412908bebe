import Verif.Model.Random
import Verif.Spec.InfoHash
import Verif.Spec.Mse

/-! # Specification: values made of random draws -/

namespace Demag.Spec

/-- `f` makes exactly the values with `P`, each of them in exactly one way: it looks only at the draws it takes off the front of the
tape, what it makes of them has `P`, and for every value with `P` there is one and only one sequence of draws that gives it.  So if the
draws are independent and uniform, two values that need draws of the same kinds are equally likely, and one value tells nothing about
the next. -/
structure DrawnOnce {δ α : Type} (f : List δ → Option (α × List δ)) (P : α → Prop) : Prop where
  sound : ∀ tape a rest, f tape = some (a, rest) → P a ∧ ∃ used, tape = used ++ rest ∧ ∀ rest', f (used ++ rest') = some (a, rest')
  once : ∀ a, P a → ∃ used, (∀ rest, f (used ++ rest) = some (a, rest)) ∧
    ∀ used', (∀ rest, f (used' ++ rest) = some (a, rest)) → used' = used

/-- The beginning of an encrypted connection to share the torrent `skey`: the secret number `key`, the first packet with the public
number and `padA`, and what the third packet will offer and how much padding it will have. -/
structure FirstMove (skey : InfoHash) (key : Nat) (padA : List UInt8) (padC : Nat) (h : Handshaker) : Prop where
  secret : h.state = .packet2 key
  first : ∃ pub, h.output = some (pub ++ padA) ∧ Sent96 (2 ^ key % msePrime) pub
  third : h.padcLen.toNat = padC
  torrent : h.skey = skey
  offer : ∀ m, Offers h.provide m ↔ m = .rc4
  nothing_else : h.input = [] ∧ h.timeout = true ∧ h.provide.toNat = 2

/-- A beginning that is allowed: a secret number of 160 bits and at most 512 bytes of padding in either packet. -/
def AllowedMove (skey : InfoHash) (h : Handshaker) : Prop :=
  ∃ key padA padC, key < 2 ^ 160 ∧ padA.length ≤ 512 ∧ padC ≤ 512 ∧ FirstMove skey key padA padC h

/-- Ports that a configuration allows. -/
def PortAllowed : LocalPort → Nat → Prop
  | .constant p, n => n = p.toNat
  | .range low high, n => low.toNat ≤ n ∧ n ≤ high.toNat

/-- An identity the program may take: the ID begins with the prefix and goes on with letters and digits; the port is allowed. -/
def AllowedIdentity (pfx : List UInt8) (port : LocalPort) (l : LocalPeer) : Prop :=
  (∃ tail, l.id.bytes = pfx ++ tail ∧ ∀ b ∈ tail, IsAlphanumeric b) ∧ PortAllowed port l.port.toNat

end Demag.Spec
