import Verif.Spec.Magnet
import Verif.Spec.TrackerUrl

/-!
# Specification: ports as texts
-/

namespace Demag.Spec

/-- `t` denotes the port `p`: an optional plus sign and then a numeral of `p`, with any number of leading zeros. -/
def PortText (t : List Char) (p : Nat) : Prop :=
  ∃ ds, (t = ds ∨ t = '+' :: ds) ∧ ds ≠ [] ∧ (∀ c ∈ ds, c.isDigit = true) ∧ ofDigits 10 (ds.map digitValue) = p ∧ p ≤ 65535

/-- `t` is `a`, the separator `d`, and `b`; and this is the first separator. -/
def AtFirst (d : Char) (t a b : List Char) : Prop := t = a ++ d :: b ∧ d ∉ a

/-- `t` is `a`, the separator `d`, and `b`; and this is the last separator. -/
def AtLast (d : Char) (t a b : List Char) : Prop := t = a ++ d :: b ∧ d ∉ b

end Demag.Spec
