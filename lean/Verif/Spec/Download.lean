import Verif.Spec.Resolve
import Verif.Spec.Connect
import Verif.Spec.Utf8
import Verif.Model.Download

/-!
# Specification: downloading a torrent file
-/

namespace Demag.Spec

/-- Over the link `l` the peer agrees to talk, announces the size of the metadata `d`, and delivers its pieces, all our messages getting
through.  `message` says which frames are which messages. -/
def Delivers (message : List UInt8 → Message → Prop) (l : Link) (ctx : PeerCtx) (encrypt : Bool) (d : List UInt8) : Prop :=
  ∃ (h : Handshake) (s : ExtendedHandshake) (code : BitVec 8) (frames : List (List UInt8)) (fs t : List UInt8) (stop : Stop) (n : BitVec 32)
    (ms : List Message) (ps : List (List UInt8)),
    Agreed l ctx encrypt h s code (fs ++ t) ∧ (∀ k, l.sends k = .ok) ∧ s.metadataSize = some n ∧ n.toNat ≤ 20 * 1024 * 1024 ∧
    IsFrames frames fs ∧ NoFrame l.ending t stop ∧ List.Forall₂ message frames ms ∧ Serves n.toNat 0 ps ms ∧ d = ps.flatten

/-- Whether a peer is asked over an encrypted connection (in the first attempt), for each preference. -/
def firstEncrypts : CryptoPreference → Bool → Bool
  | .always, _ => true
  | .prefer, _ => true
  | .ifRequired, required => required
  | .never, _ => false

/-- The files written. -/
def writesOf : List SaveEffect → List (Output × List UInt8)
  | [] => []
  | .write o b :: es => (o, b) :: writesOf es
  | .createDirAll _ :: es => writesOf es

/-- The peer agrees to talk and then, at some point, neither sends a further message nor ends the connection, or a message of ours to
it is never completely sent. -/
def Stalls (l : Link) (ctx : PeerCtx) (encrypt : Bool) : Prop :=
  ∃ h s code rest, Agreed l ctx encrypt h s code rest ∧
    ((∃ frames fs t, rest = fs ++ t ∧ IsFrames frames fs ∧ NoFrame l.ending t .pending) ∨ ∃ k, 2 ≤ k ∧ l.sends k = .hang)

end Demag.Spec
