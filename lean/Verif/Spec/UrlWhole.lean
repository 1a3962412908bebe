import Verif.Spec.UrlText
import Verif.Spec.Config

/-!
# Specification: the texts of URLs whose scheme is not special (URL Standard)

Which texts are URLs, and what they denote: scheme, host, port, path, query and fragment.
-/

namespace Demag.Spec

/-- An upper case hexadecimal digit. -/
def hexLetter (n : Nat) : Char := "0123456789ABCDEF".toList.getD n '0'

/-- `t` with the characters that are not `keep` written as `%XX`, byte by byte of their UTF-8 form. -/
def escapeUnless (keep : Char → Prop) [DecidablePred keep] (t : List Char) : List Char :=
  t.flatMap fun c =>
    if keep c then [c] else (utf8 [c]).flatMap fun b => ['%', hexLetter (b.toNat / 16), hexLetter (b.toNat % 16)]

/-- ASCII characters that are not control characters. -/
def Printing (c : Char) : Prop := 0x20 ≤ c.toNat ∧ c.toNat < 0x7F

/-- What can stand in a segment of a path as it is. -/
def KeptInPath (caret : Bool) (c : Char) : Prop := Visible c ∧ c ∉ "\"#<>?`{}".toList ∧ ¬ (caret = true ∧ c = '^')

/-- What can stand in a query as it is. -/
def KeptInQuery (c : Char) : Prop := Visible c ∧ c ∉ "\"#<>".toList

/-- What can stand in a fragment as it is. -/
def KeptInFragment (c : Char) : Prop := Visible c ∧ c ∉ "\"<>`".toList

instance : DecidablePred Printing := fun _ => inferInstanceAs (Decidable (_ ∧ _))
instance : DecidablePred Visible := fun _ => inferInstanceAs (Decidable (_ ∧ _))
instance (caret : Bool) : DecidablePred (KeptInPath caret) := fun _ => inferInstanceAs (Decidable (_ ∧ _))
instance : DecidablePred KeptInQuery := fun _ => inferInstanceAs (Decidable (_ ∧ _))
instance : DecidablePred KeptInFragment := fun _ => inferInstanceAs (Decidable (_ ∧ _))

/-- A scheme: a letter, then letters, digits, `+`, `-` and `.`. -/
def IsScheme (sch : List Char) : Prop :=
  ∃ c r, sch = c :: r ∧ c.isAlpha = true ∧ ∀ d ∈ r, d.isAlpha = true ∨ d.isDigit = true ∨ d = '+' ∨ d = '-' ∨ d = '.'

/-- A host: nothing; an IPv6 address in brackets; or a name, in which what is not printing is escaped. -/
def IsHost (h : List Char) : Option UrlHost → Prop
  | none => h = []
  | some (.domain d) => h ≠ [] ∧ (∀ c ∈ h, c.toNat ≠ 0 ∧ c ∉ "\t\n\r #/:<>?@[\\]^|".toList) ∧ d = escapeUnless Printing h
  | some (.ipv4 _) => False
  | some (.ipv6 d) => ∃ t ip, h = '[' :: (t ++ [']']) ∧ IsIpv6Text t ip ∧ d = ipv6Text ip

/-- What follows the host: nothing, or a colon and a number below 65536 or no number. -/
def IsPort (t : List Char) : Option (BitVec 16) → Prop
  | none => t = [] ∨ t = [':']
  | some p => ∃ ds, t = ':' :: ds ∧ ds ≠ [] ∧ (∀ c ∈ ds, c.isDigit = true) ∧ ofDigits 10 (ds.map digitValue) = p.toNat

/-- `USER:PASSWORD@HOST:PORT`; the host is what follows the last `@`, and may be missing if there is nothing else. -/
def IsAuthority (a : List Char) (host : Option UrlHost) (port : Option (BitVec 16)) : Prop :=
  ∃ user h p, a = user ++ h ++ p ∧ (user = [] ∨ user.getLast? = some '@') ∧ '@' ∉ h ++ p ∧ IsHost h host ∧ IsPort p port ∧
    (h = [] → user = [] ∧ p = [])

/-- Following the segments of a path from the root on: `..` leads back, `.` nowhere. -/
inductive Walk (caret : Bool) : List (List Char) → List (List Char) → Prop
  | start : Walk caret [] []
  | back {ss path s} : Walk caret ss path → formBytes s = utf8 ['.', '.'] → Walk caret (ss ++ [s]) path.dropLast
  | stay {ss path s} : Walk caret ss path → formBytes s = utf8 ['.'] → Walk caret (ss ++ [s]) path
  | go {ss path s} : Walk caret ss path → formBytes s ≠ utf8 ['.', '.'] → formBytes s ≠ utf8 ['.'] →
      Walk caret (ss ++ [s]) (path ++ [escapeUnless (KeptInPath caret) s])

/-- The text of a path that is nothing or starts with a slash, and the path it denotes.  A path that ends with `.` or `..` leads
to a directory, so what it denotes ends with a slash. -/
def IsSlashPath (caret : Bool) (t path : List Char) : Prop :=
  (t = [] ∧ path = []) ∨
  ∃ ss last w, (∀ s ∈ ss ++ [last], '/' ∉ s) ∧ t = (ss ++ [last]).flatMap (fun s => '/' :: s) ∧ Walk caret (ss ++ [last]) w ∧
    path = (w ++ if formBytes last = utf8 ['.', '.'] ∨ formBytes last = utf8 ['.'] then [[]] else []).flatMap fun s => '/' :: s

/-- What is between the scheme and the query: `//AUTHORITY/PATH`, `/PATH`, or an opaque path. -/
def IsHierarchy (caret : Bool) (t : List Char) (host : Option UrlHost) (port : Option (BitVec 16)) (path : List Char) : Prop :=
  (∃ a p, t = '/' :: '/' :: (a ++ p) ∧ '/' ∉ a ∧ IsAuthority a host port ∧ IsSlashPath caret p path) ∨
  (t.head? = some '/' ∧ t.take 2 ≠ ['/', '/'] ∧ host = none ∧ port = none ∧ IsSlashPath caret t path) ∨
  (t.head? ≠ some '/' ∧ host = none ∧ port = none ∧ path = escapeUnless Printing t)

/-- `?QUERY#FRAGMENT`, of which both can be missing. -/
def IsTail (t : List Char) (query fragment : Option (List Char)) : Prop :=
  ∃ q f, t = q ++ f ∧
    (q = [] ∧ query = none ∨ ∃ q', q = '?' :: q' ∧ '#' ∉ q' ∧ query = some (escapeUnless KeptInQuery q')) ∧
    (f = [] ∧ fragment = none ∨ ∃ f', f = '#' :: f' ∧ fragment = some (escapeUnless KeptInFragment f'))

/-- The special schemes of the URL Standard. -/
def SpecialScheme (sch : List Char) : Prop :=
  sch = "http".toList ∨ sch = "https".toList ∨ sch = "ws".toList ∨ sch = "wss".toList ∨ sch = "ftp".toList ∨ sch = "file".toList

instance : DecidablePred SpecialScheme := fun _ => inferInstanceAs (Decidable (_ ∨ _))

/-- `s` is the text of the URL `u`, whose scheme is not special.  Of the user nothing is kept. -/
def IsUrl (caret : Bool) (s : List Char) (u : Url) : Prop :=
  ∃ sch hier tail, Stripped s (sch ++ [':'] ++ hier ++ tail) ∧ IsScheme sch ∧ u.scheme = sch.map Char.toLower ∧
    ('?' ∉ hier ∧ '#' ∉ hier) ∧ IsHierarchy caret hier u.host u.port u.path ∧ IsTail tail u.query u.fragment ∧ u.auth = []

/-- `s` is the text of a UDP tracker: `udp://USER@HOST:PORT/PATH?QUERY#FRAGMENT`, of which host and port are necessary.  The user
and the fragment do not matter. -/
def IsUdpText (caret : Bool) (s : List Char) (u : UdpUrl) : Prop :=
  ∃ sch user h p path tail frag, Stripped s (sch ++ "://".toList ++ (user ++ h ++ p) ++ path ++ tail ++ frag) ∧
    sch.map Char.toLower = "udp".toList ∧ (∀ c ∈ user ++ h ++ p, c ≠ '/' ∧ c ≠ '?' ∧ c ≠ '#') ∧
    (user = [] ∨ user.getLast? = some '@') ∧ '@' ∉ h ++ p ∧
    (IsHost h (some (.domain u.host)) ∨ IsHost h (some (.ipv6 u.host))) ∧ IsPort p (some u.port) ∧
    ('?' ∉ path ∧ '#' ∉ path) ∧ '#' ∉ tail ∧ (frag = [] ∨ frag.head? = some '#') ∧
    ∃ path', IsSlashPath caret path path' ∧
      (tail = [] ∧ u.urldata = path' ∨ ∃ q, tail = '?' :: q ∧ u.urldata = path' ++ '?' :: escapeUnless KeptInQuery q)

/-- `s` is the text of a URL with the scheme `magnet`, whatever the case of the letters, and `q` is its query.  There may be an
authority, a path and a fragment. -/
def IsMagnetUrl (s q : List Char) : Prop :=
  ∃ sch hier frag, Stripped s (sch ++ [':'] ++ hier ++ ['?'] ++ q ++ frag) ∧ sch.map Char.toLower = "magnet".toList ∧
    ('?' ∉ hier ∧ '#' ∉ hier) ∧ '#' ∉ q ∧ (frag = [] ∨ frag.head? = some '#') ∧
    ∀ r, hier = '/' :: '/' :: r → ∃ host port, IsAuthority (r.takeWhile (· ≠ '/')) host port

end Demag.Spec
