import Verif.Spec.Magnet
import Verif.Spec.IpText
import Verif.Model.IpText

/-!
# Specification: texts of URLs (URL Standard) as far as magnet links and UDP trackers go

Besides the data types of the model, its printing of IPv6 addresses (C57) is used.
-/

namespace Demag.Spec

/-- A visible ASCII character. -/
def Visible (c : Char) : Prop := 0x20 < c.toNat ∧ c.toNat < 0x7F

/-- `t` is what counts of the URL text `s`: white space and control characters around it do not, nor do tabs and line ends in
it. -/
def Stripped (s t : List Char) : Prop :=
  ∃ a m b, s = a ++ m ++ b ∧ (∀ c ∈ a ++ b, c.toNat ≤ 0x20) ∧ (∀ c, m.head? = some c → 0x20 < c.toNat) ∧
    (∀ c, m.getLast? = some c → 0x20 < c.toNat) ∧ t = m.filter fun c => ¬ (c = '\t' ∨ c = '\n' ∨ c = '\r')

/-- A name that can be the host of a URL, in normal form. -/
def PlainName (t : List Char) : Prop := t ≠ [] ∧ ∀ c ∈ t, Visible c ∧ c ∉ "#/:<>?@[\\]^|".toList

/-- A segment of a path in normal form: nothing in it needs to be escaped (where there are two opinions about `^`), and it does
not mean `.` or `..`. -/
def PlainSegment (caret : Bool) (t : List Char) : Prop :=
  (∀ c ∈ t, Visible c ∧ c ∉ "/\"#<>?`{}".toList ∧ (caret = true → c ≠ '^')) ∧ formBytes t ≠ utf8 ['.'] ∧ formBytes t ≠ utf8 ['.', '.']

/-- A path in normal form: nothing, or segments with slashes in front. -/
def PlainPath (caret : Bool) (p : List Char) : Prop :=
  ∃ segs : List (List Char), p = segs.flatMap (fun s => '/' :: s) ∧ ∀ s ∈ segs, PlainSegment caret s

/-- A query in normal form. -/
def PlainQuery (q : List Char) : Prop := ∀ c ∈ q, Visible c ∧ c ∉ "\"#<>".toList

/-- A UDP tracker URL in normal form. -/
structure PlainUdp (caret : Bool) (u : UdpUrl) : Prop where
  host : PlainName u.host ∨ ∃ ip, u.host = ipv6Text ip
  data : ∃ p, PlainPath caret p ∧ (u.urldata = p ∨ ∃ q, PlainQuery q ∧ u.urldata = p ++ '?' :: q)

/-- `e` is a way to write the text `t` as a value in the query of a link: without spaces and control characters, and with `&` and
`#` escaped. -/
def Escaped (e t : List Char) : Prop := formBytes e = utf8 t ∧ ∀ c ∈ e, 0x20 < c.toNat ∧ c ≠ '&' ∧ c ≠ '#'

/-- `s` is the text of a URL with the scheme `magnet`, whatever the case of the letters, and of this form `magnet:PATH?QUERY` or
`magnet:PATH?QUERY#FRAGMENT`, where `q` is the query. -/
def IsMagnetText (s q : List Char) : Prop :=
  ∃ sch path frag, Stripped s (sch ++ [':'] ++ path ++ ['?'] ++ q ++ frag) ∧ sch.map Char.toLower = "magnet".toList ∧
    ('?' ∉ path ∧ '#' ∉ path ∧ path.take 2 ≠ ['/', '/']) ∧ '#' ∉ q ∧ (frag = [] ∨ frag.head? = some '#')

/-- The magnet link with these values for the info hash, the name and the trackers. -/
def magnetLink (xt dn : List Char) (trs : List (List Char)) : List Char :=
  "magnet:?xt=".toList ++ xt ++ "&dn=".toList ++ dn ++ trs.flatMap fun tr => "&tr=".toList ++ tr

end Demag.Spec
