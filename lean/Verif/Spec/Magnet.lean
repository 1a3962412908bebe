import Verif.Spec.TrackerHttp
import Verif.Spec.InfoHash
import Verif.Model.Magnet

/-!
# Specification: magnet links (BEP 9) and files of magnet links

The data types of the model, `Tracker.parse` (C48), UTF-8 and the lossy reading of UTF-8 (a parameter) are used.
-/

namespace Demag.Spec

/-- The names and values in a query, as texts. -/
def textPairs (lossy : List UInt8 → Text) (q : Text) : List (Text × Text) :=
  (formDecode q).map fun kv => (lossy kv.1, lossy kv.2)

/-- The values of the parameter `k`, in order. -/
def valuesOf (k : String) (ps : List (Text × Text)) : List Text :=
  (ps.filter fun kv => kv.1 = k.toList).map Prod.snd

/-- `v` is `urn:btih:` followed by a text form of the info hash. -/
def DenotesXt (v : Text) (h : InfoHash) : Prop :=
  ∃ s, v = "urn:btih:".toList ++ s ∧ (IsHexOf (utf8 s) h.bytes ∨ IsBase32Of (utf8 s) h.bytes)

/-- The magnet described by the parameters. -/
structure DescribesMagnet (parseUrl : Text → Option Url) (ps : List (Text × Text)) (m : Magnet) : Prop where
  xt : ∃ v, valuesOf "xt" ps = [v] ∧ DenotesXt v m.infoHash
  dn : m.displayName = (valuesOf "dn" ps).getLast?
  tr : List.Forall₂ (fun v t => Tracker.parse parseUrl v = .ok t) (valuesOf "tr" ps) m.trackers

/-- The lines of a file: each ended by LF or CR LF, the last one possibly by the end of the file. -/
inductive IsLines : List UInt8 → List (List UInt8) → Prop
  | nil : IsLines [] []
  | last {l : List UInt8} : l ≠ [] → 10 ∉ l → IsLines l [l]
  | lf {l rest : List UInt8} {ls : List (List UInt8)} : 10 ∉ l → l.getLast? ≠ some 13 → IsLines rest ls →
      IsLines (l ++ [10] ++ rest) (l :: ls)
  | crlf {l rest : List UInt8} {ls : List (List UInt8)} : 10 ∉ l → IsLines rest ls → IsLines (l ++ [13, 10] ++ rest) (l :: ls)

/-- The characters with the Unicode property White_Space (PropList.txt). -/
def whiteSpace : List Nat :=
  [0x9, 0xA, 0xB, 0xC, 0xD, 0x20, 0x85, 0xA0, 0x1680, 0x2000, 0x2001, 0x2002, 0x2003, 0x2004, 0x2005, 0x2006, 0x2007, 0x2008,
   0x2009, 0x200A, 0x2028, 0x2029, 0x202F, 0x205F, 0x3000]

def IsWhite (c : Char) : Prop := c.toNat ∈ whiteSpace

/-- `s` is `t` without the white space around it. -/
def TrimmedOf (t s : Text) : Prop :=
  ∃ a b, t = a ++ s ++ b ∧ (∀ c ∈ a, IsWhite c) ∧ (∀ c ∈ b, IsWhite c) ∧
    (∀ c, s.head? = some c → ¬ IsWhite c) ∧ (∀ c, s.getLast? = some c → ¬ IsWhite c)

/-- The line (its bytes) is to be skipped: blank or a comment. -/
def SkippedLine (l : List UInt8) : Prop := ∃ t s, l = utf8 t ∧ TrimmedOf t s ∧ (s = [] ∨ s.head? = some '#')

/-- The line's contents, neither blank nor a comment, are the text `s`. -/
def MagnetLine (l : List UInt8) (s : Text) : Prop := ∃ t, l = utf8 t ∧ TrimmedOf t s ∧ s ≠ [] ∧ s.head? ≠ some '#'

/-- The magnets on the lines. -/
inductive LinesDenote (P : Text → Magnet → Prop) : List (List UInt8) → List Magnet → Prop
  | nil : LinesDenote P [] []
  | skip {l ls ms} : SkippedLine l → LinesDenote P ls ms → LinesDenote P (l :: ls) ms
  | magnet {l s m ls ms} : MagnetLine l s → P s m → LinesDenote P ls ms → LinesDenote P (l :: ls) (m :: ms)

end Demag.Spec
