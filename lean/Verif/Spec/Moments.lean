import Verif.Model.Moments

/-!
# What is said and what is done: specification
-/

namespace Demag.Spec

open Demag

/-- The messages among what happens. -/
def saidIn (ms : List Moment) : List MainLine := ms.filterMap fun
  | .says x => some x
  | .does _ => none

/-- What is done to the file system among what happens. -/
def doneIn (ms : List Moment) : List SaveEffect := ms.filterMap fun
  | .says _ => none
  | .does e => some e

/-- A torrent file is written to `out`. -/
def isWriteTo (out : Output) : Moment → Bool
  | .does (.write o _) => decide (o = out)
  | _ => false

/-- It is said that a torrent file is going to be written to `out`. -/
def announces (out : Output) : Moment → Bool
  | .says (.saving _ o) => decide (o = out)
  | _ => false

end Demag.Spec
