import Mathlib.Data.List.Forall2
import Verif.Spec.Config
import Verif.Model.Config
import Verif.Model.PeerSession

/-!
# Specification: the configuration file

The keys, their meaning and their defaults are those of the section "Configuration" of `/repo/README.md` (lines 205-285).
-/

namespace Demag.Spec

/-- A TOML value (crate `toml`).  Floats and booleans are not told apart; dates are left out. -/
inductive Toml where
  | str (s : List Char)
  | int (i : Int)
  | arr (l : List Toml)
  | table (l : List (List Char × Toml))
  | other

/-- The value a table has under a key.  TOML forbids a key to be given twice. -/
def underKey (k : List Char) : List (List Char × Toml) → Option Toml
  | [] => none
  | (k', v) :: rest => if k' = k then some v else underKey k rest

/-- The value that a setting is given: by its name in a table, or by its position `pos` in an array (serde reads structures of either
form). -/
def givenIn (t : Toml) (pos : Nat) (name : List Char) : Option Toml :=
  match t with
  | .table l => underKey name l
  | .arr l => l[pos]?
  | _ => none

/-- What may stand for a section of the configuration file. -/
def SectionLike : Toml → Prop
  | .table _ => True
  | .arr _ => True
  | _ => False

/-- The setting `name` (the one at position `pos`) of the section `sect` of the configuration file `doc` comes out as `x`: if it or its section is
missing, as the default; otherwise the value given must mean `x`. -/
def Setting {α : Type} (doc : List (List Char × Toml)) (sect : String) (pos : Nat) (name : String) (Means : Toml → α → Prop) (dflt x : α) :
    Prop :=
  match underKey sect.toList doc with
  | none => x = dflt
  | some t => SectionLike t ∧
    match givenIn t pos name.toList with
    | none => x = dflt
    | some v => Means v x

/-- An integer from `lo` to `hi`. -/
def Number (lo hi : Nat) (v : Toml) (n : Nat) : Prop := v = .int n ∧ lo ≤ n ∧ n ≤ hi

/-- The words for the encryption preference. -/
def Preference (v : Toml) (p : CryptoPreference) : Prop :=
  v = .str (match p with | .always => "always" | .prefer => "prefer" | .ifRequired => "if-required" | .never => "never").toList

/-- A port number, as an integer or as a text of digits, or two ascending port numbers separated by a hyphen. -/
def Port (v : Toml) : LocalPort → Prop
  | .constant p => v = .int p.toNat ∨
    ∃ t, v = .str t ∧ t ≠ [] ∧ (∀ c ∈ t, c.isDigit = true) ∧ ofDigits 10 (t.map digitValue) = p.toNat
  | .range low high => ∃ t pre post a b, v = .str t ∧ AtFirst '-' t pre post ∧ TrimmedOf pre a ∧ TrimmedOf post b ∧
    PortText a low.toNat ∧ PortText b high.toNat ∧ low.toNat ≤ high.toNat

/-- `t` is a host, a colon and a port.  `isHost` says which texts are hosts (the crate `url`). -/
def AddressText (isHost : List Char → Host → Prop) (t : List Char) (a : InetAddr) : Prop :=
  ∃ host port, AtLast ':' t host port ∧ PortText port a.port.toNat ∧ isHost host a.host

/-- A nonempty list of addresses, as texts. -/
def Addresses (isHost : List Char → Host → Prop) (v : Toml) (as : List InetAddr) : Prop :=
  as ≠ [] ∧ ∃ ts : List (List Char), v = .arr (ts.map .str) ∧ List.Forall₂ (AddressText isHost) ts as

end Demag.Spec
