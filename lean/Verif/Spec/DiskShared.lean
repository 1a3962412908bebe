import Verif.Spec.Disk

/-!
# Specification: which of the outputs are files
-/

namespace Demag.Spec

/-- The files among what was written, each with its path and contents, in order; standard output is not a file. -/
def fileJobs (l : List (Output × List UInt8)) : List (List Char × List UInt8) :=
  l.filterMap fun x =>
    match x.1 with
    | .file p => some (p, x.2)
    | .stdout => none

end Demag.Spec
