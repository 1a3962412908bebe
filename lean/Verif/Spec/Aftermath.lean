import Verif.Spec.Resolve
import Verif.Model.Aftermath

/-!
# Specification: what becomes of a download that has its metadata
-/

namespace Demag.Spec

variable {T P A D I ε J R : Type}

/-- A trace: events, each with what could be observed at it. -/
abbrev AftermathTrace (T P ε I : Type) := List (AftermathEvent T P ε I × List (AftermathOutput T P))

def lateContactOf : AftermathOutput T P → Option P | .contact p => some p | _ => none
def lateAskOf : AftermathOutput T P → Option P | .asksPeer p => some p | _ => none
def lateTrackerOf : AftermathOutput T P → Option T | .asksTracker t => some t | _ => none

/-- The peers for which a task was spawned, in order. -/
def lateContacts (tr : AftermathTrace T P ε I) : List P := (tr.flatMap Prod.snd).filterMap lateContactOf
/-- The peers that began to be asked, in order. -/
def lateAsked (tr : AftermathTrace T P ε I) : List P := (tr.flatMap Prod.snd).filterMap lateAskOf
/-- The trackers that began to be asked, in order. -/
def lateTrackers (tr : AftermathTrace T P ε I) : List T := (tr.flatMap Prod.snd).filterMap lateTrackerOf

/-- The job that a worker is busy with. -/
def jobAtWork : Worker J → Option J | .running _ j => some j | _ => none
/-- The job that a worker has in its hands but has not begun. -/
def jobInHand : Worker J → Option J | .received _ j => some j | _ => none

/-- The jobs that workers are busy with. -/
def busyWith (n : Nursery J R) : List J := n.workers.filterMap jobAtWork

/-- The jobs that are waiting for a worker, or that a worker has in its hands but has not begun. -/
def notBegun (n : Nursery J R) : List J :=
  n.queue.map Prod.snd ++ n.workers.filterMap jobInHand

/-- All workers of a nursery have ended. -/
def AllStopped (n : Nursery J R) : Prop := ∀ w ∈ n.workers, w = .stopped

/-- Nothing is left of a download: the feeding task and all the workers have ended. -/
structure LetGo (s : Resolve T P A D I ε) : Prop where
  job : s.job = .over
  peers : AllStopped s.peers
  trackers : ∀ n, s.trackers = some n → AllStopped n

/-- Something that the program and the runtime do by themselves, whatever trackers and peers do or do not. -/
def OwnStep : AftermathEvent T P ε I → Prop
  | .abort => True
  | .drop => True
  | .jobGone => True
  | .tracker (.abort _) => True
  | .peer (.abort _) => True
  | _ => False

end Demag.Spec
