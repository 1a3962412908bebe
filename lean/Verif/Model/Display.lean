import Verif.Model.Wire

/-!
# Texts for people: the model of `CommaList` and `ErrorChain` in `/repo/src/util.rs`
-/

namespace Demag

/-- src/util.rs:16-22: the loop over the values, with the flag `first`; gives the flag after the loop and what is written. -/
def commaLoop : Bool → List Text → Bool × Text
  | first, [] => (first, [])
  | first, v :: vs =>
    let r := commaLoop false vs
    (r.1, (if !first then ", ".toList else []) ++ v ++ r.2)

/-- src/util.rs:14-28 `Display for CommaList`, given the texts of the values. -/
def commaList (values : List Text) : Text :=
  let r := commaLoop true values
  r.2 ++ if r.1 then "<none>".toList else []

/-- `std::error::Error`: a message and perhaps a source. -/
inductive Err where
  | leaf (message : Text)
  | caused (message : Text) (source : Err)

/-- `Display` of an error. -/
def Err.message : Err → Text
  | .leaf m => m
  | .caused m _ => m

/-- `Error::source` (std). -/
def Err.source : Err → Option Err
  | .leaf _ => none
  | .caused _ s => some s

/-- src/util.rs:164-168: the loop, with the source to be written next.  The chain of sources is finite. -/
def sourcesLoop : Err → Text
  | .leaf m => ": ".toList ++ m
  | .caused m s => ": ".toList ++ m ++ sourcesLoop s

/-- src/util.rs:161-171 `Display for ErrorChain`. -/
def errorChain (e : Err) : Text :=
  e.message ++ match e.source with | none => [] | some s => sourcesLoop s

end Demag
