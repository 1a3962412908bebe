import Verif.Spec.Download

/-!
# Specification: exactly when a peer gives us the metadata, and exactly when it keeps us waiting
-/

namespace Demag.Spec

/-- The conversation `es` over the link `l` about the metadata, with the result `r`: the peer agrees to talk and announces a size that is
not too large; of the frames it sends, `used` are received, as the messages of `es`; everything `es` says was sent did get through (after the
two messages, or three if the Fast extension is used, of the connection itself), and `es` ends as it may with `r`. -/
def Talks (sha1 : List UInt8 → List UInt8) (good : List UInt8 → Prop) (message : List UInt8 → Message → Prop)
    (garbage : List UInt8 → MessageError → Prop) (l : Link) (ctx : PeerCtx) (encrypt : Bool) (es : List Event)
    (r : Res PeerError TorrentInfo) : Prop :=
  ∃ (h : Handshake) (s : ExtendedHandshake) (code : BitVec 8) (n : BitVec 32) (used left : List (List UInt8)) (fs t : List UInt8) (stop : Stop),
    Agreed l ctx encrypt h s code (fs ++ t) ∧ s.metadataSize = some n ∧ n.toNat ≤ 20 * 1024 * 1024 ∧
    IsFrames (used ++ left) fs ∧ NoFrame l.ending t stop ∧ List.Forall₂ message used (receivedOf es) ∧
    (∀ k, k < (if h.extensions.has .fast then 3 else 2) + (sentOf es).length → l.sends k = .ok) ∧
    Ends sha1 good ctx.infoHash n.toNat left stop garbage (l.sends ((if h.extensions.has .fast then 3 else 2) + (sentOf es).length)) es r

/-- The link that decides, and whether it is encrypted: the first one, unless the user forbids what the peer requires; or, if encryption is
only preferred and its handshake fails, a second one that is not encrypted. -/
inductive Decides (pref : CryptoPreference) (required : Bool) (links : Nat → Link) : Link → Bool → Prop
  | first : ¬ (pref = .never ∧ required = true) →
      ¬ (pref = .prefer ∧ required = false ∧ (links 0).connect = .ok ∧ (links 0).crypto = .fail) →
      Decides pref required links (links 0) (firstEncrypts pref required)
  | second : pref = .prefer → required = false → (links 0).connect = .ok → (links 0).crypto = .fail →
      Decides pref required links (links 1) false

end Demag.Spec
