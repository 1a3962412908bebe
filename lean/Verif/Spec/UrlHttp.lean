import Verif.Spec.UrlWhole
import Verif.Model.UrlParse

/-!
# Specification: the texts of hosts and of URLs with a special scheme (URL Standard)

Which texts are hosts of HTTP URLs (and of DHT nodes), which are HTTP URLs, and what they denote.  What IDNA makes of a domain
name that is not plain ASCII is a parameter.  Besides the data types of the model, its printing of IP addresses (C57) is used.
-/

namespace Demag.Spec

/-- The bytes a text denotes: `%` and two hexadecimal digits are a byte, all else stands for itself. -/
def escapedBytes : List Char → List UInt8
  | [] => []
  | c :: r =>
    if c = '%' then
      match r with
      | a :: b :: r' =>
        match hexDigit a, hexDigit b with
        | some x, some y => UInt8.ofNat (16 * x + y) :: escapedBytes r'
        | _, _ => utf8 [c] ++ escapedBytes (a :: b :: r')
      | [a] => utf8 [c] ++ escapedBytes [a]
      | [] => utf8 [c]
    else utf8 [c] ++ escapedBytes r
termination_by t => t.length

/-- ASCII, and no label starts with `xn--`. -/
def PlainAscii (t : List Char) : Prop :=
  (∀ c ∈ t, c.toNat < 0x80) ∧
    ∀ a b, t.map Char.toLower = a ++ "xn--".toList ++ b → a ≠ [] ∧ a.getLast? ≠ some '.'

/-- What cannot be in a domain name. -/
def NotInDomain (c : Char) : Prop := c.toNat ≤ 0x20 ∨ c.toNat = 0x7F ∨ c ∈ "%#/:<>?@[\\]^|".toList

/-- `d` is the domain name written as `h`: plain ASCII in lower case, otherwise what IDNA makes of it. -/
def DomainOf (idna : List UInt8 → Option (List Char)) (h d : List Char) : Prop :=
  (∀ b ∈ escapedBytes h, ¬ NotInDomain (Char.ofNat b.toNat)) ∧
    ((∃ t, utf8 t = escapedBytes h ∧ PlainAscii t ∧ d = t.map Char.toLower) ∨
      ((∀ t, utf8 t = escapedBytes h → ¬ PlainAscii t) ∧ idna (escapedBytes h) = some d))

/-- A part of an IPv4 address: a number, in decimal, in octal behind `0`, or in hexadecimal behind `0x`. -/
inductive IsIpv4Number : List Char → Nat → Prop
  | decimal {ds} : ds ≠ [] → (∀ c ∈ ds, c.isDigit = true) → (ds.head? = some '0' → ds.length = 1) →
      IsIpv4Number ds (ofDigits 10 (ds.map digitValue))
  | octal {ds} : ds ≠ [] → (∀ c ∈ ds, c.isDigit = true ∧ digitValue c < 8) → IsIpv4Number ('0' :: ds) (ofDigits 8 (ds.map digitValue))
  | hex {x ds vs} : x = 'x' ∨ x = 'X' → ds.mapM hexDigit = some vs → IsIpv4Number ('0' :: x :: ds) (ofDigits 16 vs)

/-- The last part of a name (but for a dot at its end) is a number, or at least digits. -/
def EndsInNumber (d : List Char) : Prop :=
  ∃ front last tail, d = front ++ last ++ tail ∧ (front = [] ∨ front.getLast? = some '.') ∧ '.' ∉ last ∧ (tail = [] ∨ tail = ['.']) ∧
    ((last ≠ [] ∧ ∀ c ∈ last, c.isDigit = true) ∨ ∃ n, IsIpv4Number last n)

/-- The IPv4 addresses of URLs: up to four numbers with dots between them, and perhaps a dot at the end.  The last number fills the
bytes for which there are no others. -/
def IsUrlIpv4 (d : List Char) (ip : Ipv4) : Prop :=
  ∃ parts tail front last, d = (parts.intersperse ['.']).flatten ++ tail ∧ (tail = [] ∨ tail = ['.']) ∧
    List.Forall₂ IsIpv4Number parts (front ++ [last]) ∧ front.length ≤ 3 ∧ (∀ n ∈ front, n ≤ 255) ∧ last < 256 ^ (4 - front.length) ∧
    ip.bits.toNat = ofDigits 256 front * 256 ^ (4 - front.length) + last

/-- `h` is the text of a host: an IPv6 address in brackets; or a domain name, which is an IPv4 address if it ends in a number. -/
def IsHostText (idna : List UInt8 → Option (List Char)) (h : List Char) : Host → Prop
  | .ipv6 ip => ∃ t, h = '[' :: (t ++ [']']) ∧ IsIpv6Text t ip
  | .ipv4 ip => h.head? ≠ some '[' ∧ ∃ d, DomainOf idna h d ∧ EndsInNumber d ∧ IsUrlIpv4 d ip
  | .domain d => h.head? ≠ some '[' ∧ DomainOf idna h d ∧ d ≠ [] ∧ ¬ EndsInNumber d

/-- What is assumed of IDNA: a name that results is ASCII in lower case, without what cannot be in a name, and results again if it is
not plain. -/
structure IdnaOk (idna : List UInt8 → Option (List Char)) : Prop where
  ascii : ∀ bs d, idna bs = some d → ∀ c ∈ d, c.toNat < 0x80 ∧ ¬ NotInDomain c ∧ c.toLower = c
  again : ∀ bs d, idna bs = some d → ¬ PlainAscii d → idna (utf8 d) = some d

/-! ### URLs -/

/-- What can stand in a query as it is. -/
def KeptInSpecialQuery (c : Char) : Prop := Visible c ∧ c ∉ "\"#<>'".toList

/-- What can stand in a user name or a password as it is. -/
def KeptInUser (c : Char) : Prop := Visible c ∧ c ∉ "\"#<>?`{}^/:;=@[\\]|".toList

instance : DecidablePred KeptInSpecialQuery := fun _ => inferInstanceAs (Decidable (_ ∧ _))
instance : DecidablePred KeptInUser := fun _ => inferInstanceAs (Decidable (_ ∧ _))

/-- `USER` or `USER:PASSWORD`, of which an empty password is not kept. -/
def IsUser (t auth : List Char) : Prop :=
  ∃ name password, (t = name ∧ password = [] ∨ t = name ++ ':' :: password) ∧ ':' ∉ name ∧
    auth = escapeUnless KeptInUser name ++ if password = [] then [] else ':' :: escapeUnless KeptInUser password

/-- The port that need not be written. -/
def usualPort (scheme : List Char) : Nat :=
  if scheme = "http".toList ∨ scheme = "ws".toList then 80
  else if scheme = "https".toList ∨ scheme = "wss".toList then 443
  else 21

/-- The text of a path, where backslashes count as slashes and nothing is the same as `/`. -/
def IsSpecialPath (caret : Bool) (t path : List Char) : Prop :=
  IsSlashPath caret (if t = [] then ['/'] else t.map fun c => if c = '\\' then '/' else c) path

/-- `?QUERY#FRAGMENT`, of which both can be missing. -/
def IsSpecialTail (t : List Char) (query fragment : Option (List Char)) : Prop :=
  ∃ q f, t = q ++ f ∧
    (q = [] ∧ query = none ∨ ∃ q', q = '?' :: q' ∧ '#' ∉ q' ∧ query = some (escapeUnless KeptInSpecialQuery q')) ∧
    (f = [] ∧ fragment = none ∨ ∃ f', f = '#' :: f' ∧ fragment = some (escapeUnless KeptInFragment f'))

/-- What follows the scheme of a special URL: `//USER:PASSWORD@HOST:PORT/PATH?QUERY#FRAGMENT`, where the number of slashes in front
does not matter. -/
def IsSpecialRest (caret : Bool) (idna : List UInt8 → Option (List Char)) (t : List Char) (u : Url) : Prop :=
  ∃ slashes user h p path tail host port, t = slashes ++ (user ++ h ++ p) ++ path ++ tail ∧
    (∀ c ∈ slashes, c = '/' ∨ c = '\\') ∧ (∀ c ∈ user ++ h ++ p, c ∉ "/\\?#".toList) ∧
    (user = [] ∧ u.auth = [] ∨ ∃ x, user = x ++ ['@'] ∧ IsUser x u.auth) ∧ '@' ∉ h ++ p ∧
    IsHostText idna h host ∧ u.host = some host.toUrl ∧
    IsPort p port ∧ u.port = (if port = some (BitVec.ofNat 16 (usualPort u.scheme)) then none else port) ∧
    ('?' ∉ path ∧ '#' ∉ path) ∧ (path = [] ∨ path.head? = some '/' ∨ path.head? = some '\\') ∧ IsSpecialPath caret path u.path ∧
    IsSpecialTail tail u.query u.fragment

/-- `s` is the text of an HTTP tracker. -/
def IsHttpText (env : UrlEnv) (s : List Char) (u : Url) : Prop :=
  ∃ sch rest, Stripped s (sch ++ [':'] ++ rest) ∧ u.scheme = sch.map Char.toLower ∧
    (u.scheme = "http".toList ∨ u.scheme = "https".toList) ∧ IsSpecialRest env.caret env.idna rest u

/-- An HTTP URL in normal form. -/
structure PlainHttp (env : UrlEnv) (u : Url) : Prop where
  scheme : u.scheme = "http".toList ∨ u.scheme = "https".toList
  auth : ∃ name password, u.auth = name ++ (if password = [] then [] else ':' :: password) ∧ ∀ c ∈ name ++ password, KeptInUser c
  host : ∃ h : Host, u.host = some h.toUrl ∧ ∀ d, h = .domain d → d ≠ [] ∧ (∀ c ∈ d, c.toNat < 0x80 ∧ ¬ NotInDomain c ∧ c.toLower = c) ∧
    ¬ EndsInNumber d ∧ (PlainAscii d ∨ env.idna (utf8 d) = some d)
  port : u.port ≠ some (BitVec.ofNat 16 (usualPort u.scheme))
  path : PlainPath env.caret u.path ∧ u.path ≠ [] ∧ '\\' ∉ u.path
  query : ∀ c ∈ u.query.getD [], KeptInSpecialQuery c
  fragment : ∀ c ∈ u.fragment.getD [], KeptInFragment c

end Demag.Spec
