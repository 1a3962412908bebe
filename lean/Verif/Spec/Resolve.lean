import Verif.Spec.Nursery
import Verif.Model.Resolve

/-!
# Specification: resolving a magnet link

What can be read off a run.  Only the types of events and outputs of the model are used.
-/

namespace Demag.Spec

variable {T P A D I ε M : Type}

/-- A trace: events, each with what could be observed at it. -/
abbrev ResolveTrace (T P D I ε : Type) := List (ResolveEvent P ε I × List (ResolveOutput T P D I ε))

def trackerDoneOf : ResolveOutput T P D I ε → Option (T × Outcome (List P))
  | .answer t ps => some (t, .value ps)
  | .trackerPanic t => some (t, .panic)
  | _ => none
def arrivedOf : ResolveOutput T P D I ε → Option P | .arrived p => some p | _ => none
def contactOf : ResolveOutput T P D I ε → Option P | .contact p => some p | _ => none
def peerDoneOf : ResolveOutput T P D I ε → Option (P × Outcome (Except ε I)) | .peerDone p r => some (p, r) | _ => none
def triedOf : ResolveOutput T P D I ε → Option (P × Except ε I) | .tried p r => some (p, r) | _ => none
def jobPanicOf : ResolveOutput T P D I ε → Option Unit | .jobPanic => some () | _ => none

def resolveObserved (tr : ResolveTrace T P D I ε) : List (ResolveOutput T P D I ε) := tr.flatMap Prod.snd

/-- The trackers whose task ended, with the peers they gave, in the order in which they ended. -/
def trackerDones (tr : ResolveTrace T P D I ε) : List (T × Outcome (List P)) := (resolveObserved tr).filterMap trackerDoneOf
/-- The peers taken from the trackers' answers or from the DHT, in order. -/
def arrivals (tr : ResolveTrace T P D I ε) : List P := (resolveObserved tr).filterMap arrivedOf
/-- The peers for which a task was spawned, in order. -/
def contacts (tr : ResolveTrace T P D I ε) : List P := (resolveObserved tr).filterMap contactOf
/-- The peers whose task ended, with the outcome, in the order in which they ended. -/
def peerDones (tr : ResolveTrace T P D I ε) : List (P × Outcome (Except ε I)) := (resolveObserved tr).filterMap peerDoneOf
/-- The results seen by the main loop, in order. -/
def tries (tr : ResolveTrace T P D I ε) : List (P × Except ε I) := (resolveObserved tr).filterMap triedOf
/-- Panics of the feeding task. -/
def jobPanics (tr : ResolveTrace T P D I ε) : List Unit := (resolveObserved tr).filterMap jobPanicOf

/-- The peers in an answer. -/
def answered : T × Outcome (List P) → List P
  | (_, .value ps) => ps
  | (_, .panic) => []

/-- The downloads of a batch that ended, with their outcome. -/
def downloads (tr : List (BatchEvent × List (M × Outcome Bool))) : List (M × Outcome Bool) := tr.flatMap Prod.snd

end Demag.Spec
