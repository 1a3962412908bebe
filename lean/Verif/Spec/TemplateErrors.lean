import Verif.Spec.Template
import Verif.Model.Template

/-!
# Specification: malformed path templates
-/

namespace Demag.Spec

/-- The characters of the name of a field. -/
def FieldChar (c : Char) : Prop := c ∈ "abcdefghijklmnopqrstuvwxyzABCDEFGHIJKLMNOPQRSTUVWXYZ0123456789_".toList

/-- The number of bytes of a text in UTF-8. -/
def byteCount (s : List Char) : Nat := (s.map Char.utf8Size).sum

/-- Where and why a template is malformed: a beginning `p` can be read, and is followed by an opening brace that cannot: nothing but field characters `f` comes after it;
or the first other character `d` is not a closing brace (nor an opening one at once); or the field is unknown. -/
inductive Malformed : List Char → PathTemplateError → Prop
  | unmatched (p f : List Char) (ts : List Tok) (readable : Reads p ts) (field : ∀ c ∈ f, FieldChar c) : Malformed (p ++ '{' :: f) (.unmatched (byteCount p))
  | invalid (p f r : List Char) (d : Char) (ts : List Tok) (readable : Reads p ts) (field : ∀ c ∈ f, FieldChar c) (other : ¬ FieldChar d) (notClosed : d ≠ '}')
      (notEscape : ¬ (f = [] ∧ d = '{')) : Malformed (p ++ '{' :: f ++ d :: r) (.invalidField (byteCount p))
  | unknown (p f r : List Char) (ts : List Tok) (readable : Reads p ts) (field : ∀ c ∈ f, FieldChar c) (notName : f ≠ "name".toList) (notHash : f ≠ "hash".toList) :
      Malformed (p ++ '{' :: f ++ '}' :: r) (.unknownField f)

end Demag.Spec
