import Verif.Model.Resolve

/-!
# A download that has its metadata: the model of the end of `/repo/src/magnet.rs` 32-103, and of what is dropped there

`Model/Resolve.lean` ends with the result of `get_torrent_file`.  What is left then are the task that feeds peers to the nursery of peers, the
workers of that nursery, and those of the nursery of trackers.
-/

namespace Demag

variable {T P A D I ε J R : Type}

/-- src/magnet.rs:32-103: what is left of a download, and whether `peer_job.abort()` has been called. -/
structure Aftermath (T P A D I ε : Type) where
  work : Resolve T P A D I ε
  aborted : Bool

/-- src/magnet.rs:89-91: the metadata has been received. -/
def Aftermath.start (s : Resolve T P A D I ε) : Aftermath T P A D I ε := ⟨s, false⟩

/-- What may happen. -/
inductive AftermathEvent (T P ε I : Type) where
  /-- `peer_job.abort()` -/
  | abort
  /-- `return`: the stream of the peer nursery is dropped -/
  | drop
  /-- the feeding task, not yet stopped, gets the next peer; the next stream of peers; finds the stream ended -/
  | nextPeer
  | nextBatch
  | noMorePeers
  /-- the feeding task, which was aborted, is gone -/
  | jobGone
  /-- something happens to a worker of the tracker nursery; of the peer nursery -/
  | tracker (e : NurseryEvent T (List P))
  | peer (e : NurseryEvent P (P × Except ε I))

/-- What can be observed. -/
inductive AftermathOutput (T P : Type) where
  /-- a task is spawned for this peer -/
  | contact (p : P)
  /-- `expect` panicked in the feeding task (and nobody notices) -/
  | jobPanic
  /-- a worker begins to ask this peer; this tracker -/
  | asksPeer (p : P)
  | asksTracker (t : T)
  deriving DecidableEq

/-- src/asyncutil/worker_nursery.rs:44-54: what a worker does, or the runtime to it. -/
def NurseryEvent.ofWorker : NurseryEvent J R → Bool
  | .take _ => true
  | .check _ => true
  | .finish _ _ => true
  | .exit _ => true
  | .abort _ => true
  | _ => false

/-- src/asyncutil/worker_nursery.rs:45-49: the job that begins at an event. -/
def Nursery.beginning (s : Nursery J R) : NurseryEvent J R → Option J
  | .check w =>
    match s.workers[w]? with
    | some (.received _ j) => if s.done then none else some j
    | _ => none
  | _ => none

/-- src/magnet.rs:70-86: the feeding task ends: its handle is dropped and its stream of peers, with the stream of the tracker nursery in it. -/
def Aftermath.endJob (s : Aftermath T P A D I ε) (out : List (AftermathOutput T P)) :
    Option (Aftermath T P A D I ε × List (AftermathOutput T P)) :=
  match s.work.peers.step .dropHandle with
  | none => none
  | some (n, _) =>
    match s.work.trackers with
    | none => some ({ s with work := { s.work with peers := n, job := .over, batch := [] } }, out)
    | some t =>
      (t.step .dropStream).map fun r =>
        ({ s with work := { s.work with peers := n, job := .over, batch := [], trackers := some r.1 } }, out)

/-- src/magnet.rs:70-102 after the metadata has been received, step by step.  Tasks that are aborted may go on for a while. -/
def Aftermath.step [DecidableEq A] (addr : P → A) (s : Aftermath T P A D I ε) :
    AftermathEvent T P ε I → Option (Aftermath T P A D I ε × List (AftermathOutput T P))
  | .abort => if s.aborted then none else some ({ s with aborted := true }, [])
  | .drop =>
    if s.aborted then (s.work.peers.step .dropStream).map fun r => ({ s with work := { s.work with peers := r.1 } }, []) else none
  | .nextPeer =>
    match s.work.job, s.work.batch with
    | .running, p :: ps =>
      if s.work.trackers.isSome && decide (addr p ∈ s.work.seen) then some ({ s with work := { s.work with batch := ps } }, [])
      else
        match s.work.peers.step (.spawn p) with
        | some (n, [.accepted _ _]) =>
          some ({ s with work := { s.work with batch := ps, seen := addr p :: s.work.seen, peers := n } }, [.contact p])
        | some (_, _) => s.endJob [.jobPanic]
        | none => none
    | _, _ => none
  | .nextBatch =>
    match s.work.job, s.work.batch, s.work.trackers with
    | .running, [], some n =>
      match n.step .recv with
      | some (n', [.delivered _ (.value ps)]) => some ({ s with work := { s.work with batch := ps, trackers := some n' } }, [])
      | some (n', [.delivered _ .panic]) => Aftermath.endJob { s with work := { s.work with trackers := some n' } } []
      | _ => none
    | _, _, _ => none
  | .noMorePeers =>
    match s.work.job, s.work.batch, s.work.trackers with
    | .running, [], some n => match n.step .recvNone with | some _ => s.endJob [] | none => none
    | .running, [], none => s.endJob []
    | _, _, _ => none
  | .jobGone => if s.aborted ∧ s.work.job = .running then s.endJob [] else none
  | .tracker e =>
    match s.work.trackers with
    | some n =>
      if e.ofWorker then
        (n.step e).map fun r =>
          ({ s with work := { s.work with trackers := some r.1 } }, ((n.beginning e).map .asksTracker).toList)
      else none
    | none => none
  | .peer e =>
    if e.ofWorker then
      (s.work.peers.step e).map fun r =>
        ({ s with work := { s.work with peers := r.1 } }, ((s.work.peers.beginning e).map .asksPeer).toList)
    else none

/-- The runs that begin with `s0`. -/
inductive AftermathRun [DecidableEq A] (addr : P → A) (s0 : Aftermath T P A D I ε) :
    List (AftermathEvent T P ε I × List (AftermathOutput T P)) → Aftermath T P A D I ε → Prop
  | init : AftermathRun addr s0 [] s0
  | step {tr : List (AftermathEvent T P ε I × List (AftermathOutput T P))} {s s' : Aftermath T P A D I ε} {e : AftermathEvent T P ε I}
      {out : List (AftermathOutput T P)} : AftermathRun addr s0 tr s → s.step addr e = some (s', out) →
        AftermathRun addr s0 (tr ++ [(e, out)]) s'

end Demag
