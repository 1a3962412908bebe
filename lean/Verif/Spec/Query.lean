import Verif.Spec.IpText
import Verif.Spec.Json
import Verif.Model.Query

/-! # Specification: what the query commands print -/

namespace Demag.Spec

/-- The output consists of these lines, each ended by a line feed. -/
def OutputLines (b : List UInt8) (ls : List (List UInt8)) : Prop :=
  b = (ls.map (· ++ [10])).flatten ∧ ∀ l ∈ ls, (10 : UInt8) ∉ l

/-- The line is a text of the address. -/
def PrintsAddress (l : List UInt8) (a : SockAddr) : Prop := ∃ t, l = utf8 t ∧ IsSockText t a 0

/-- The members of the JSON object in the line. -/
def LineJson (l : List UInt8) (members : List (List Char × Json)) : Prop := ∃ t, l = utf8 t ∧ parseJson t = some (.obj members)

end Demag.Spec
