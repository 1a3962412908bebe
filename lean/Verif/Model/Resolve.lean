import Verif.Model.Nursery

/-!
# Resolving a magnet link, and the batch command

Model of `Magnet::get_torrent_file` (src/magnet.rs) and of `Command::run` (src/main.rs).  The types of trackers `T`, peers `P`,
peer addresses `A`, DHT nodes `D`, metadata `I` and errors `ε` are left open: trackers, peers and the DHT are asked by other
parts of the code, whose results are inputs here.
-/

namespace Demag

variable {T P A D I ε : Type}

/-- Where the task that feeds peers to the peer nursery (src/magnet.rs:70-86) is: not spawned yet; running; over. -/
inductive JobPhase where
  | notStarted
  | running
  | over
  deriving DecidableEq

/-- The result of src/magnet.rs:32-103 `get_torrent_file`: the arguments of `TorrentFile::new`; `GetInfoError::Dht`;
`GetInfoError::NothingFromPeers`; or a panic: that of a peer task, resumed, or of `expect` (line 67). -/
inductive Resolved (T D I ε : Type) where
  | file (info : I) (trackers : List T) (nodes : List D)
  | dht (e : ε)
  | nothing
  | panicked
  deriving DecidableEq

/-- What src/magnet.rs:32-103 `get_torrent_file` works on: the trackers not spawned yet; the nursery of trackers, if there are
trackers; the peers left in the stream at hand (`iter(found.peers)`, or the inner stream of `flatten`); the addresses seen by
`unique_by`; the feeding task; the nursery of peers; the result. -/
structure Resolve (T P A D I ε : Type) where
  todo : List T
  trackers : Option (Nursery T (List P))
  batch : List P
  seen : List A
  nodes : List D
  job : JobPhase
  peers : Nursery P (P × Except ε I)
  result : Option (Resolved T D I ε)

/-- src/magnet.rs:36-54, 69: up to the point where tasks are spawned.  `dht` is the answer of `get_peers_from_dht`, asked only if
the magnet has no trackers. -/
def Resolve.start (trackers : List T) (dht : Except ε (List P × List D)) (jobsT jobsP : Nat) : Resolve T P A D I ε :=
  match trackers with
  | [] =>
    match dht with
    | .ok (found, nodes) => ⟨[], none, found, [], nodes, .notStarted, .new jobsP, none⟩
    | .error e => ⟨[], none, [], [], [], .over, .new jobsP, some (.dht e)⟩
  | ts => ⟨ts, some (.new jobsT), [], [], [], .notStarted, .new jobsP, none⟩

/-- What may happen. -/
inductive ResolveEvent (P ε I : Type) where
  /-- the next tracker task is spawned -/
  | spawnTracker
  /-- all are spawned; the handle is dropped and the feeding task spawned -/
  | startJob
  /-- tracker worker `w` receives a task; examines `done`; ends -/
  | trackerTake (w : Nat)
  | trackerCheck (w : Nat)
  | trackerExit (w : Nat)
  /-- the tracker task of worker `w` ends -/
  | trackerEnds (w : Nat) (r : Outcome (Except ε (List P)))
  /-- the feeding task gets the next item of the stream at hand -/
  | nextPeer
  /-- it gets the next stream from the tracker nursery -/
  | nextBatch
  /-- it finds the stream ended -/
  | noMorePeers
  /-- peer worker `w` receives a task; examines `done`; ends -/
  | peerTake (w : Nat)
  | peerCheck (w : Nat)
  | peerExit (w : Nat)
  /-- the peer task of worker `w` ends -/
  | peerEnds (w : Nat) (r : Outcome (Except ε I))
  /-- the main loop receives an outcome -/
  | receive
  /-- the main loop finds the nursery's stream ended -/
  | receiveNone

/-- What can be observed. -/
inductive ResolveOutput (T P D I ε : Type) where
  /-- a tracker's answer: its peers, none after an error -/
  | answer (t : T) (ps : List P)
  /-- a tracker task panicked -/
  | trackerPanic (t : T)
  /-- the stream of peers gave this peer -/
  | arrived (p : P)
  /-- a task is spawned for this peer -/
  | contact (p : P)
  /-- `expect` panicked in the feeding task -/
  | jobPanic
  /-- the task of a peer ended -/
  | peerDone (p : P) (r : Outcome (Except ε I))
  /-- the main loop got to know about it -/
  | tried (p : P) (r : Except ε I)
  | result (r : Resolved T D I ε)
  deriving DecidableEq

/-- src/magnet.rs:56-66: the stream made from a tracker's result. -/
def trackerPeers : Outcome (Except ε (List P)) → Outcome (List P)
  | .value (.ok ps) => .value ps
  | .value (.error _) => .value []
  | .panic => .panic

/-- src/magnet.rs:78-81: a peer task's value contains the peer. -/
def peerOutcome (p : P) : Outcome (Except ε I) → Outcome (P × Except ε I)
  | .value r => .value (p, r)
  | .panic => .panic

/-- A step of the tracker nursery. -/
def Resolve.trackerStep (s : Resolve T P A D I ε) (e : NurseryEvent T (List P)) (out : List (ResolveOutput T P D I ε)) :
    Option (Resolve T P A D I ε × List (ResolveOutput T P D I ε)) :=
  match s.trackers with
  | some n => (n.step e).map fun r => ({ s with trackers := some r.1 }, out)
  | none => none

/-- A step of the peer nursery. -/
def Resolve.peerStep (s : Resolve T P A D I ε) (e : NurseryEvent P (P × Except ε I)) (out : List (ResolveOutput T P D I ε)) :
    Option (Resolve T P A D I ε × List (ResolveOutput T P D I ε)) :=
  (s.peers.step e).map fun r => ({ s with peers := r.1 }, out)

/-- src/magnet.rs:70-86: the feeding task ends, one way or another: its stream and its handle are dropped.  With the stream of
the tracker nursery its workers are aborted; from then on it plays no part. -/
def Resolve.endJob (s : Resolve T P A D I ε) (out : List (ResolveOutput T P D I ε)) :
    Option (Resolve T P A D I ε × List (ResolveOutput T P D I ε)) :=
  (s.peers.step .dropHandle).map fun r => ({ s with peers := r.1, job := .over, batch := [], trackers := none }, out)

/-- src/magnet.rs:44-102, step by step.  Nothing is said of what happens after the result is there: then everything is dropped,
the feeding task being aborted.  (Between the drop of the stream and the abort the feeding task may find the peer nursery
closed and panic in `expect`, which nobody notices.) -/
def Resolve.step [DecidableEq A] (addr : P → A) (all : List T) (s : Resolve T P A D I ε) :
    ResolveEvent P ε I → Option (Resolve T P A D I ε × List (ResolveOutput T P D I ε))
  | e =>
    if s.result.isSome then none
    else
      match e with
      | .spawnTracker =>
        match s.todo with
        | t :: ts =>
          match s.trackers.bind fun n => n.step (.spawn t) with
          | some (n, [.accepted _ _]) => some ({ s with todo := ts, trackers := some n }, [])
          | some (_, _) => some ({ s with result := some .panicked }, [.result .panicked])
          | none => none
        | [] => none
      | .startJob =>
        match s.todo, s.job with
        | [], .notStarted =>
          match s.trackers with
          | some n => (n.step .dropHandle).map fun r => ({ s with trackers := some r.1, job := .running }, [])
          | none => some ({ s with job := .running }, [])
        | _, _ => none
      | .trackerTake w => s.trackerStep (.take w) []
      | .trackerCheck w => s.trackerStep (.check w) []
      | .trackerExit w => s.trackerStep (.exit w) []
      | .trackerEnds w r =>
        match s.trackers.bind fun n => n.workers[w]? with
        | some (.running _ t) =>
          s.trackerStep (.finish w (trackerPeers r))
            (match trackerPeers r with | .value ps => [.answer t ps] | .panic => [.trackerPanic t])
        | _ => none
      | .nextPeer =>
        match s.job, s.batch with
        | .running, p :: ps =>
          if s.trackers.isSome && decide (addr p ∈ s.seen) then some ({ s with batch := ps }, [.arrived p])
          else
            match s.peers.step (.spawn p) with
            | some (n, [.accepted _ _]) =>
              some ({ s with batch := ps, seen := addr p :: s.seen, peers := n }, [.arrived p, .contact p])
            | some (_, _) => s.endJob [.arrived p, .jobPanic]
            | none => none
        | _, _ => none
      | .nextBatch =>
        match s.job, s.batch, s.trackers with
        | .running, [], some n =>
          match n.step .recv with
          | some (n', [.delivered _ (.value ps)]) => some ({ s with batch := ps, trackers := some n' }, [])
          | some (n', [.delivered _ .panic]) => { s with trackers := some n' }.endJob []
          | _ => none
        | _, _, _ => none
      | .noMorePeers =>
        match s.job, s.batch, s.trackers with
        | .running, [], some n => match n.step .recvNone with | some _ => s.endJob [] | none => none
        | .running, [], none => s.endJob []
        | _, _, _ => none
      | .peerTake w => s.peerStep (.take w) []
      | .peerCheck w => s.peerStep (.check w) []
      | .peerExit w => s.peerStep (.exit w) []
      | .peerEnds w r =>
        match s.peers.workers[w]? with
        | some (.running _ p) => s.peerStep (.finish w (peerOutcome p r)) [.peerDone p r]
        | _ => none
      | .receive =>
        if s.job = .notStarted then none
        else
          match s.peers.step .recv with
          | some (n, [.delivered _ (.value (p, .ok info))]) =>
            let r := Resolved.file info all s.nodes
            some ({ s with peers := n, result := some r }, [.tried p (.ok info), .result r])
          | some (n, [.delivered _ (.value (p, .error e))]) => some ({ s with peers := n }, [.tried p (.error e)])
          | some (n, [.delivered _ .panic]) => some ({ s with peers := n, result := some .panicked }, [.result .panicked])
          | _ => none
      | .receiveNone =>
        if s.job = .notStarted then none
        else
          match s.peers.step .recvNone with
          | some (n, _) => some ({ s with peers := n, result := some .nothing }, [.result .nothing])
          | none => none

/-- The runs of `get_torrent_file`. -/
inductive ResolveRun [DecidableEq A] (addr : P → A) (all : List T) (dht : Except ε (List P × List D)) (jobsT jobsP : Nat) :
    List (ResolveEvent P ε I × List (ResolveOutput T P D I ε)) → Resolve T P A D I ε → Prop
  | init : ResolveRun addr all dht jobsT jobsP [] (Resolve.start all dht jobsT jobsP)
  | step {tr : List (ResolveEvent P ε I × List (ResolveOutput T P D I ε))} {s s' : Resolve T P A D I ε}
      {e : ResolveEvent P ε I} {out : List (ResolveOutput T P D I ε)} :
      ResolveRun addr all dht jobsT jobsP tr s → s.step addr all e = some (s', out) →
        ResolveRun addr all dht jobsT jobsP (tr ++ [(e, out)]) s'

/-! ### Commands -/

/-- The exit status of the program; `crash` if a panic reaches `main`. -/
inductive ExitCode where
  | success
  | failure
  | crash
  deriving DecidableEq

/-- src/magnet.rs:105-113 `download_torrent_file`: whether it gave `Ok`.  `save`: whether `TorrentFile::save` succeeds. -/
def downloadTorrentFile (save : I → List T → List D → Bool) : Resolved T D I ε → Outcome Bool
  | .file info ts ns => .value (save info ts ns)
  | .dht _ => .value false
  | .nothing => .value false
  | .panicked => .panic

/-- src/main.rs:223-233 `Command::Get`. -/
def getCommand : Outcome Bool → ExitCode
  | .value true => .success
  | .value false => .failure
  | .panic => .crash

/-- src/main.rs:285-319 `Command::QueryTracker`: the peers to print, and the exit status. -/
def queryTrackerCommand : Except ε (List P) → List P × ExitCode
  | .ok ps => (ps, .success)
  | .error _ => ([], .failure)

/-- src/main.rs:320-340 `Command::QueryDht`. -/
def queryDhtCommand : Except ε (List P × List D) → List P × ExitCode
  | .ok (ps, _) => if ps.isEmpty then ([], .failure) else (ps, .success)
  | .error _ => ([], .failure)

/-- src/main.rs:341-376 `Command::QueryPeer`. -/
def queryPeerCommand (save : I → List T → List D → Bool) : Except ε I → ExitCode
  | .ok info => if save info [] [] then .success else .failure
  | .error _ => .failure

/-- src/main.rs:234-284 `Command::Batch`, while it runs: the magnets not spawned yet, the nursery, whether its handle is dropped, the
counters, the exit status. -/
structure Batch (M : Type) where
  todo : List M
  nursery : Nursery M Bool
  dropped : Bool
  success : Nat
  total : Nat
  exit : Option ExitCode

/-- src/main.rs:235-249: `magnets` is what `parse_magnets_file` gave, `none` for an error. -/
def Batch.start {M : Type} (magnets : Option (List M)) (jobs : Nat) : Batch M :=
  match magnets with
  | none => ⟨[], .new jobs, false, 0, 0, some .failure⟩
  | some [] => ⟨[], .new jobs, false, 0, 0, some .success⟩
  | some ms => ⟨ms, .new jobs, false, 0, 0, none⟩

/-- What may happen. -/
inductive BatchEvent where
  | spawn
  | dropHandle
  | take (w : Nat)
  | check (w : Nat)
  | workerExit (w : Nat)
  | ends (w : Nat) (o : Outcome Bool)
  | receive
  | receiveNone

/-- src/main.rs:250-283, step by step.  The output: the magnet whose download ended, and how. -/
def Batch.step {M : Type} (s : Batch M) (e : BatchEvent) : Option (Batch M × List (M × Outcome Bool)) :=
  if s.exit.isSome then none
  else
    match e with
    | .spawn =>
      match s.todo with
      | m :: ms =>
        match s.nursery.step (.spawn m) with
        | some (n, [.accepted _ _]) => some ({ s with todo := ms, nursery := n }, [])
        | some (_, _) => some ({ s with exit := some .crash }, [])
        | none => none
      | [] => none
    | .dropHandle =>
      if s.todo.isEmpty && !s.dropped then
        (s.nursery.step .dropHandle).map fun r => ({ s with nursery := r.1, dropped := true }, [])
      else none
    | .take w => (s.nursery.step (.take w)).map fun r => ({ s with nursery := r.1 }, [])
    | .check w => (s.nursery.step (.check w)).map fun r => ({ s with nursery := r.1 }, [])
    | .workerExit w => (s.nursery.step (.exit w)).map fun r => ({ s with nursery := r.1 }, [])
    | .ends w o =>
      match s.nursery.workers[w]? with
      | some (.running _ m) => (s.nursery.step (.finish w o)).map fun r => ({ s with nursery := r.1 }, [(m, o)])
      | _ => none
    | .receive =>
      if s.dropped then
        match s.nursery.step .recv with
        | some (n, [.delivered _ (.value b)]) =>
          some ({ s with nursery := n, success := if b then s.success + 1 else s.success, total := s.total + 1 }, [])
        | some (n, [.delivered _ .panic]) => some ({ s with nursery := n, exit := some .crash }, [])
        | _ => none
      else none
    | .receiveNone =>
      if s.dropped then
        match s.nursery.step .recvNone with
        | some (n, _) =>
          some ({ s with nursery := n, exit := some (if s.success = s.total then .success else .failure) }, [])
        | none => none
      else none

/-- The runs of the batch command. -/
inductive BatchRun {M : Type} (magnets : Option (List M)) (jobs : Nat) :
    List (BatchEvent × List (M × Outcome Bool)) → Batch M → Prop
  | init : BatchRun magnets jobs [] (Batch.start magnets jobs)
  | step {tr : List (BatchEvent × List (M × Outcome Bool))} {s s' : Batch M} {e : BatchEvent} {out : List (M × Outcome Bool)} :
      BatchRun magnets jobs tr s → s.step e = some (s', out) → BatchRun magnets jobs (tr ++ [(e, out)]) s'

end Demag
