import Verif.Spec.Digits
import Verif.Model.TrackerUrl

/-!
# Specification: tracker URLs
-/

namespace Demag.Spec

/-- The value of a decimal digit. -/
def digitValue (c : Char) : Nat := c.toNat - 48

/-- `t` is the decimal numeral of `n`: digits only, at least one, no superfluous zeros. -/
def IsDecimal (n : Nat) (t : List Char) : Prop :=
  t ≠ [] ∧ (∀ c ∈ t, c.isDigit = true) ∧ ofDigits 10 (t.map digitValue) = n ∧ (t.head? = some '0' → t = ['0'])

/-- Splitting the text of a UDP URL: `udp://`, the host (in brackets or up to the colon), a colon, the digits of the port,
and the rest. -/
def splitUdpUrl (t : List Char) : Option (List Char × Nat × List Char) :=
  if t.take 6 = "udp://".toList then
    match t.drop 6 with
    | '[' :: r =>
      match r.dropWhile (· ≠ ']') with
      | ']' :: ':' :: p =>
        some (r.takeWhile (· ≠ ']'), ofDigits 10 ((p.takeWhile (·.isDigit)).map digitValue), p.dropWhile (·.isDigit))
      | _ => none
    | r =>
      match r.dropWhile (· ≠ ':') with
      | ':' :: p =>
        some (r.takeWhile (· ≠ ':'), ofDigits 10 ((p.takeWhile (·.isDigit)).map digitValue), p.dropWhile (·.isDigit))
      | _ => none
  else none

/-- The text of a host. -/
def hostText : UrlHost → List Char
  | .domain s => s
  | .ipv4 s => s
  | .ipv6 s => s

/-- What the crate `url` guarantees of the components of a URL: domains and IPv4 addresses have no colon and no brackets, IPv6
addresses have a colon and no brackets, and a path is empty or starts with a slash. -/
structure UrlOk (u : Url) : Prop where
  host : ∀ h, u.host = some h → ∀ c ∈ hostText h, c ≠ '[' ∧ c ≠ ']'
  domain : ∀ h, u.host = some h → (∀ s, h ≠ .ipv6 s) → ':' ∉ hostText h
  ipv6 : ∀ s, u.host = some (.ipv6 s) → ':' ∈ s
  path : u.path = [] ∨ ∃ r, u.path = '/' :: r

/-- Path and query, as they stand in the URL. -/
def pathAndQuery (u : Url) : List Char :=
  match u.query with
  | none => u.path
  | some q => u.path ++ ['?'] ++ q

end Demag.Spec
