import Verif.Model.SecureLink
import Verif.Model.Tracker

/-! # Specification: connections made over a network with a given time for the key exchange -/

namespace Demag.Spec

/-- The connections that `behaves` allows are made over some network, encrypted or not, with `dhTimeout` seconds for the key exchange, and the
clock does not show more than `now` seconds. -/
def OverNetwork (H : List UInt8 → List UInt8) (dhTimeout now : Nat) (behaves : Peer → (Nat → Link) → Prop) : Prop :=
  ∀ p links, behaves p links → ∃ (raws : Nat → RawLink) (chances : Nat → Chances) (skey : InfoHash) (enc : Nat → Bool),
    (∀ i, links i = (raws i).link H (chances i) skey (enc i)) ∧ ∀ i, (chances i).dhTimeout = dhTimeout ∧ (chances i).now ≤ now

end Demag.Spec
