import Verif.Model.Wire

/-!
# Specification: reading broken UTF-8 (Unicode, "U+FFFD substitution of maximal subparts")
-/

namespace Demag.Spec

/-- The bytes are the beginning of the encoding of some character. -/
def CharPrefix (p : List UInt8) : Prop := ∃ c : Char, p <+: utf8 [c]

/-- `bad`, followed by `rest`, is one ill-formed piece: no character begins here, and `bad` is the longest beginning of a
character, or a single byte if no character begins with that byte. -/
structure IllFormed (bad rest : List UInt8) : Prop where
  notChar : ∀ c : Char, ¬ utf8 [c] <+: bad ++ rest
  nonempty : bad ≠ []
  piece : bad.length = 1 ∨ CharPrefix bad
  longest : ∀ x r, rest = x :: r → ¬ CharPrefix (bad ++ [x])

/-- The bytes read as a text, with U+FFFD for every ill-formed piece. -/
inductive Lossy : List UInt8 → List Char → Prop
  | nil : Lossy [] []
  | char (c : Char) {r : List UInt8} {t : List Char} : Lossy r t → Lossy (utf8 [c] ++ r) (c :: t)
  | bad {bad r : List UInt8} {t : List Char} : IllFormed bad r → Lossy r t → Lossy (bad ++ r) (Char.ofNat 0xFFFD :: t)

end Demag.Spec
