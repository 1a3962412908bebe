import Verif.Model.Display

/-!
# Specification: lists and chains as texts
-/

namespace Demag.Spec

/-- The texts one after the other with `sep` between them. -/
def joined (sep : List Char) : List (List Char) → List Char
  | [] => []
  | [t] => t
  | t :: u :: ts => t ++ sep ++ joined sep (u :: ts)

/-- The messages of an error, its source, the source of that, and so on. -/
def messages : Err → List (List Char)
  | .leaf m => [m]
  | .caused m s => m :: messages s

end Demag.Spec
