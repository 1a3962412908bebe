import Verif.Model.FleetGet
import Verif.Model.AppDht

/-!
# The command `batch` with all the conversations it has: the model of `/repo/src/main.rs` 250-283 with everything it calls

Model/FleetGet.lean says how the tasks of the downloads may end.  Here they are part of the state: what the trackers are told and answer, what the one
DHT client does, and how the peers behave are events, so that a list of events is an interleaving of everything that goes over the network.
-/

namespace Demag

/-- src/magnet.rs:54-66: the task that asks a tracker, and what `run` has returned; until that is passed on by the task. -/
structure AskTask where
  tracker : Tracker
  ask : Ask
  result : Option (Except (GetterError AskError) (List Peer))

/-- src/main.rs:250-283: the batch with its downloads, and the tasks and the DHT client they have started.  `link n` is the link of download `n`, once
it has been begun; `rest n` is what is left of its nursery of trackers; `lookups n` the info hash that it has asked the DHT for, `found n` the
answer; `asks n k` the task of tracker number `k` of download `n`, `talks n k` how the network behaves towards peer number `k`. -/
structure NetBatch where
  fleet : MagnetFleet
  dht : AppDht
  link : Nat → Option Magnet
  rest : Nat → Option (Nursery Tracker (List Peer))
  lookups : Nat → Option InfoHash
  found : Nat → Option (Except TaskError (List Peer × List SockAddr))
  asks : Nat → Nat → Option AskTask
  talks : Nat → Nat → Option (Nat → Link)

/-- src/main.rs:234-250: at the beginning. -/
def NetBatch.start (links : Option (List Magnet)) (jobs : Nat) : NetBatch :=
  ⟨Fleet.start links jobs, AppDht.start, fun _ => none, fun _ => none, fun _ => none, fun _ => none, fun _ _ => none, fun _ _ => none⟩

/-- What may happen. -/
inductive NetEvent where
  /-- a step of the program itself -/
  | fleet (e : FleetEvent Peer SockAddr TorrentInfo TaskError)
  /-- something with the DHT client; `.lock n`: download `n` asks it -/
  | dht (e : AppDhtEvent)
  /-- download `n` has what it needs to spawn tasks: trackers, or the answer of the DHT -/
  | begins (n : Nat)
  /-- the task of tracker worker `w` begins; something happens with the task of tracker number `k`; its end reaches the worker -/
  | trackerBegins (n w : Nat)
  | tracker (n k : Nat) (e : AskEvent)
  | trackerEnds (n w : Nat)
  /-- something in what is left of the nursery of trackers when the download has its result -/
  | trackerLeftover (n : Nat) (e : NurseryEvent Tracker (List Peer))
  /-- the task of peer worker `w` begins, and the network behaves like this; it ends -/
  | peerBegins (n w : Nat) (links : Nat → Link)
  | peerEnds (n w : Nat)
  /-- the download of worker `w` ends, at this time, with a file system that lets these operations succeed -/
  | ends (w : Nat) (now : Except Nat Nat) (fileOk : Nat → Bool)

/-- What can be observed. -/
inductive NetOutput where
  | fleet (o : FleetOutput Magnet Tracker Peer SockAddr TorrentInfo TaskError)
  | dht (o : AppDhtOutput)
  /-- in the task of tracker number `k` of download `n`, which is `t` -/
  | tracker (n k : Nat) (t : Tracker) (o : AskOutput)
  /-- all that is said in the task of a peer -/
  | peer (n : Nat) (p : Peer) (said : List Attempt)

/-- The events of src/main.rs:250-283 and src/magnet.rs:32-103 that are not ends of tasks. -/
def FleetEvent.inside : FleetEvent Peer SockAddr TorrentInfo TaskError → Bool
  | .batch _ => true
  | .leftover _ _ => true
  | .goesOn _ (.trackerEnds _ _) => false
  | .goesOn _ (.peerEnds _ _) => false
  | .goesOn _ _ => true
  | .begins _ _ => false
  | .ends _ _ => false

/-- A function with another value in one place. -/
def setAt {α : Type} (f : Nat → α) (n : Nat) (x : α) : Nat → α := fun k => if k = n then x else f k

/-- src/app.rs:53-59 `get_peers_from_dht`: its result, told by the client. -/
def hearDht (found : Nat → Option (Except TaskError (List Peer × List SockAddr))) :
    List AppDhtOutput → Nat → Option (Except TaskError (List Peer × List SockAddr))
  | [] => found
  | .failed t :: rest => hearDht (setAt found t (some (.error (.dht .create)))) rest
  | .effect (.answer t r) :: rest => hearDht (setAt found t (some (.ok (r.peers, r.closestNodes)))) rest
  | .effect (.down t) :: rest => hearDht (setAt found t (some (.error (.dht .down)))) rest
  | .effect _ :: rest => hearDht found rest

/-- `PeerGetter::run` (src/tracker/mod.rs:60-98) has returned. -/
def askReturned : List AskOutput → Option (Except (GetterError AskError) (List Peer))
  | [] => none
  | .result r :: _ => some r
  | _ :: rest => askReturned rest

/-- Its task is dropped. -/
def AskEvent.isDropped : AskEvent → Bool
  | .dropped => true
  | _ => false

/-- A step of the program itself. -/
def NetBatch.inner (env : GetEnv) (s : NetBatch) (e : FleetEvent Peer SockAddr TorrentInfo TaskError) : Option (NetBatch × List NetOutput) :=
  (s.fleet.step (fun p : Peer => p.address) Magnet.trackers env.cfg.trackers.jobsPerMagnet env.cfg.peers.jobsPerMagnet e).map fun r =>
    ({ s with fleet := r.1 }, r.2.map .fleet)

/-- src/app.rs:38-59: something with the DHT client.  Who asks it asks for the info hash in `lookups`. -/
def NetBatch.dhtStep (env : GetEnv) (resolve : Text → BitVec 16 → Option (List SockAddr)) (s : NetBatch) (e : AppDhtEvent) :
    Option (NetBatch × List NetOutput) :=
  (s.dht.step (fun n => (s.lookups n).getD ⟨List.replicate 20 0, by decide⟩) resolve env.cfg.dht.bootstrapNodes e).map fun r =>
    ({ s with dht := r.1, found := hearDht s.found r.2 }, r.2.map .dht)

/-- The nursery of trackers of download `n` (src/magnet.rs:45-46), or what is left of it. -/
def NetBatch.trackers (s : NetBatch) (n : Nat) : Option (Nursery Tracker (List Peer)) :=
  match s.rest n with
  | some q => some q
  | none => (s.fleet.work n).bind Resolve.trackers

/-- src/magnet.rs:93-96, 101-103: download `n` has its result, or its nursery of trackers is gone, so the tasks of trackers are dropped. -/
def NetBatch.lettingGo (s : NetBatch) (n : Nat) : Bool :=
  match s.fleet.work n with
  | some r => r.result.isSome || r.trackers.isNone
  | none => false

/-- src/main.rs:250-283 with src/magnet.rs:32-113, src/tracker/mod.rs:60-119, src/app.rs:38-59 and src/peer/mod.rs:189-212 inside: one event; `none` if
it cannot happen.  `resolve` looks up the names of the DHT's nodes.  A panic in a task that asks a tracker is not modelled (there is none). -/
def NetBatch.step (sha1 : Bytes → Bytes) (env : GetEnv) (resolve : Text → BitVec 16 → Option (List SockAddr)) (template : List TemplateElement)
    (s : NetBatch) : NetEvent → Option (NetBatch × List NetOutput)
  | .fleet e => if e.inside then s.inner env e else none
  | .dht (.lock n) =>
    -- src/magnet.rs:40-41
    match runningJob s.fleet.batch.nursery n, s.fleet.work n, s.lookups n with
    | some m, none, none =>
      if m.trackers.isEmpty && s.fleet.batch.exit.isNone then { s with lookups := setAt s.lookups n (some m.infoHash) }.dhtStep env resolve (.lock n)
      else none
    | _, _, _ => none
  | .dht (.dropped n) => if s.fleet.batch.exit.isSome then s.dhtStep env resolve (.dropped n) else none
  | .dht (.created n my b4 b6) => s.dhtStep env resolve (.created n my b4 b6)
  | .dht (.client e) => s.dhtStep env resolve (.client e)
  | .begins n =>
    -- src/magnet.rs:40-54
    match runningJob s.fleet.batch.nursery n with
    | some m =>
      match if m.trackers.isEmpty then s.found n else some (.error (.dht .down)) with
      | some d => { s with link := setAt s.link n (some m) }.inner env (.begins n d)
      | none => none
    | none => none
  | .trackerBegins n w =>
    -- src/magnet.rs:54-57
    match (s.trackers n).bind (fun q => q.workers[w]?), s.link n with
    | some (.running k t), some _ =>
      match s.asks n k with
      | none => some ({ s with asks := setAt s.asks n (setAt (s.asks n) k (some ⟨t, ⟨.init, none⟩, none⟩)) }, [])
      | some _ => none
    | _, _ => none
  | .tracker n k e =>
    match s.asks n k, s.link n with
    | some a, some m =>
      if e.isDropped && !s.lettingGo n then none
      else
        (a.ask.step env.lossy env.parseIp a.tracker (env.getter m) e).map fun r =>
          ({ s with asks := setAt s.asks n (setAt (s.asks n) k (some ⟨a.tracker, r.1, a.result.or (askReturned r.2)⟩)) }, r.2.map (.tracker n k a.tracker))
    | _, _ => none
  | .trackerEnds n w =>
    -- src/magnet.rs:57-65
    match ((s.fleet.work n).bind Resolve.trackers).bind fun q => q.workers[w]? with
    | some (.running k _) =>
      match (s.asks n k).bind AskTask.result with
      | some r => s.inner env (.goesOn n (.trackerEnds w (.value (r.mapError .tracker))))
      | none => none
    | _ => none
  | .trackerLeftover n e =>
    match s.fleet.work n with
    | some r =>
      if r.result.isSome && e.afterDrop then
        ((s.trackers n).bind fun q => q.step e).map fun x => ({ s with rest := setAt s.rest n (some x.1) }, [])
      else none
    | none => none
  | .peerBegins n w links =>
    -- src/magnet.rs:75-79
    match (s.fleet.work n).bind (fun r => r.peers.workers[w]?), s.link n with
    | some (.running k p), some m =>
      match s.talks n k with
      | none =>
        some ({ s with talks := setAt s.talks n (setAt (s.talks n) k (some links)) },
          [.peer n p (infoGetterRun sha1 links ⟨m.infoHash, env.localId, p.address.ip⟩ none env.cfg.general.encrypt p.requiresCrypto).1])
      | some _ => none
    | _, _ => none
  | .peerEnds n w =>
    -- src/magnet.rs:79-80
    match (s.fleet.work n).bind (fun r => r.peers.workers[w]?), s.link n with
    | some (.running k p), some m =>
      match s.talks n k with
      | some links =>
        match taskOutcome (peerTask sha1 env.localId env.cfg.general.encrypt m.infoHash p links) with
        | some r => s.inner env (.goesOn n (.peerEnds w r))
        | none => none
      | none => none
    | _, _ => none
  | .ends w now fileOk =>
    -- src/main.rs:257-267
    match s.fleet.batch.nursery.workers[w]? with
    | some (.running n _) =>
      match (s.fleet.work n).bind Resolve.result with
      | some r => s.inner env (.ends w (jobOutcome (getEffects { env with now := now, fileOk := fileOk } template r).2))
      | none => none
    | _ => none

/-- What happened, with what could be observed. -/
abbrev NetTrace := List (NetEvent × List NetOutput)

/-- The runs of the batch, for the links in its file. -/
inductive NetRun (sha1 : Bytes → Bytes) (env : GetEnv) (resolve : Text → BitVec 16 → Option (List SockAddr)) (template : List TemplateElement)
    (links : Option (List Magnet)) : NetTrace → NetBatch → Prop
  | init : NetRun sha1 env resolve template links [] (NetBatch.start links env.cfg.general.batchJobs)
  | step {tr : NetTrace} {s s' : NetBatch} {e : NetEvent} {out : List NetOutput} : NetRun sha1 env resolve template links tr s →
      s.step sha1 env resolve template e = some (s', out) → NetRun sha1 env resolve template links (tr ++ [(e, out)]) s'

end Demag
