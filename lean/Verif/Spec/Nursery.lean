import Verif.Model.Nursery

/-!
# Specification: unique streams, nurseries and shutdown groups

Only the types of events and outputs of the model are used.
-/

namespace Demag.Spec

/-! ### Unique streams -/

variable {α κ : Type} [DecidableEq κ]

/-- The elements whose key does not occur before them. -/
def firsts (key : α → κ) (xs : List α) : List α :=
  (xs.zipIdx.filter fun xi => key xi.1 ∉ (xs.take xi.2).map key).map Prod.fst

/-- The items among what polling a stream gave. -/
def items (ps : List (StreamPoll α)) : List α :=
  ps.filterMap fun p => match p with | .item x => some x | _ => none

/-! ### Nurseries -/

variable {J R : Type}

/-- A trace: events, each with what could be observed at it. -/
abbrev NurseryTrace (J R : Type) := List (NurseryEvent J R × List (NurseryOutput J R))

def acceptedOf : NurseryOutput J R → Option (Nat × J) | .accepted n j => some (n, j) | _ => none
def tookOf : NurseryOutput J R → Option Nat | .took n => some n | _ => none
def beganOf : NurseryOutput J R → Option Nat | .began n => some n | _ => none
def discardedOf : NurseryOutput J R → Option Nat | .discarded n => some n | _ => none
def finishedOf : NurseryOutput J R → Option (Nat × Outcome R) | .finished n o => some (n, o) | _ => none
def goneOf : NurseryOutput J R → Option Nat | .lost n => some n | .aborted n => some n | _ => none
def deliveredOf : NurseryOutput J R → Option (Nat × Outcome R) | .delivered n o => some (n, o) | _ => none

/-- All outputs of a trace, in order. -/
def observed (tr : NurseryTrace J R) : List (NurseryOutput J R) := tr.flatMap Prod.snd

/-- The jobs accepted, with their numbers, in order. -/
def acceptedJobs (tr : NurseryTrace J R) : List (Nat × J) := (observed tr).filterMap acceptedOf
/-- The jobs that left the queue, in order. -/
def tookJobs (tr : NurseryTrace J R) : List Nat := (observed tr).filterMap tookOf
/-- The jobs that began to run, in order. -/
def beganJobs (tr : NurseryTrace J R) : List Nat := (observed tr).filterMap beganOf
/-- The jobs dropped without being run. -/
def discardedJobs (tr : NurseryTrace J R) : List Nat := (observed tr).filterMap discardedOf
/-- The jobs that were run to their end, with their outcome, in the order in which they ended. -/
def finishedJobs (tr : NurseryTrace J R) : List (Nat × Outcome R) := (observed tr).filterMap finishedOf
/-- The jobs that began to run, but whose outcome nobody can receive any more. -/
def goneJobs (tr : NurseryTrace J R) : List Nat := (observed tr).filterMap goneOf
/-- The outcomes delivered, in order. -/
def deliveredJobs (tr : NurseryTrace J R) : List (Nat × Outcome R) := (observed tr).filterMap deliveredOf

/-- The jobs running at the end of the trace: begun and neither ended nor dropped. -/
def runningJobs (tr : NurseryTrace J R) : List Nat :=
  (beganJobs tr).filter fun n => n ∉ (finishedJobs tr).map Prod.fst ∧ n ∉ goneJobs tr

/-- `shutdown` has taken effect. -/
def ShutDown (tr : NurseryTrace J R) : Prop := ∃ out, (.setDone, out) ∈ tr

/-- The stream of outcomes was dropped. -/
def StreamDropped (tr : NurseryTrace J R) : Prop := ∃ out, (.dropStream, out) ∈ tr

def isDrop : NurseryEvent J R → Bool | .dropHandle => true | _ => false
def isClone : NurseryEvent J R → Bool | .clone => true | _ => false

/-- The nursery has been closed: by `close` or `shutdown`, by dropping the stream, or by dropping the last handle (the one
given by `new` and those made by cloning). -/
def ClosedBy (tr : NurseryTrace J R) : Prop :=
  (∃ e ∈ tr, e.1 = .close ∨ e.1 = .dropStream) ∨ tr.countP (fun e => isDrop e.1) = tr.countP (fun e => isClone e.1) + 1

/-! ### Shutdown groups -/

/-- The tasks spawned and not over, by their numbers. -/
def tasksLeft (es : List (Nat × ShutdownEvent)) : List Nat :=
  (List.range (es.countP fun x => x.2 = .spawn)).filter fun n => .taskEnds n ∉ es.map Prod.snd

end Demag.Spec
