import Verif.Spec.Connect

/-! # Specification: what the user says about encryption -/

namespace Demag.Spec

/-- README.md, `query-peer`: `--encrypt`, `--prefer-encrypt` and `--no-encrypt` override the configuration, in which the user has said
`configured`. -/
def userWish (enc pre no : Bool) (configured : CryptoPreference) : CryptoPreference :=
  if enc then .always else if pre then .prefer else if no then .never else configured

/-- Over which connection a peer may have been talked to, for each wish; `required`: the peer is known to require encryption; `link e i` is the
`i`-th connection, encrypted or not, as the network makes it. -/
def TalkedAs (link : Bool → Nat → Link) (agreed : Link → Bool → Prop) (required : Bool) : CryptoPreference → Prop
  | .always => agreed (link true 0) true
  | .prefer => agreed (link true 0) true ∨
      (required = false ∧ (link true 0).connect = .ok ∧ (link true 0).crypto = .fail ∧ agreed (link false 1) false)
  | .ifRequired => if required then agreed (link true 0) true else agreed (link false 0) false
  | .never => required = false ∧ agreed (link false 0) false

end Demag.Spec
