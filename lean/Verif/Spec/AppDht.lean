import Verif.Model.AppDht

/-!
# Specification: what becomes of DHT lookups
-/

namespace Demag.Spec

/-- The tasks that began a lookup. -/
def lookupsBegun (es : List AppDhtEvent) : List Nat := es.filterMap fun e => match e with | .lock t => some t | _ => none

/-- The tasks that were aborted while they waited for a client. -/
def lookupsAborted (es : List AppDhtEvent) : List Nat := es.filterMap fun e => match e with | .dropped t => some t | _ => none

/-- The task whose lookup ends: it gets peers, or there is no client, or the client is down. -/
def lookupEnd : AppDhtOutput → Option Nat
  | .failed t => some t
  | .effect (.answer t _) => some t
  | .effect (.down t) => some t
  | .effect _ => none

/-- The tasks whose lookups ended. -/
def endedTasks (out : List AppDhtOutput) : List Nat := out.filterMap lookupEnd

/-- The tasks that wait: for a client, or for its answer. -/
def waitingTasks (s : AppDht) : List Nat :=
  (match s.cell.holder with | some (t, _) => [t] | none => []) ++
    match s.client with
    | some a => a.inbox.filterMap ActorMessage.request ++ a.actor.senders.map Prod.snd
    | none => []

/-- The client, whose handle the program keeps, is down. -/
def clientDown (s : AppDht) : Prop := s.cell.holder = none ∧ s.cell.cached.isSome ∧ ∃ a, s.client = some a ∧ a.phase = .stopped

end Demag.Spec
