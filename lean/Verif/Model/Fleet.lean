import Verif.Model.Resolve

/-!
# The downloads of a batch, side by side: the model of `/repo/src/main.rs` 250-283 with `/repo/src/magnet.rs` 32-113 inside

In Model/Resolve.lean a download is a job of the batch that ends at some time.  Here what happens in it are events as well, so that a list of
events is an interleaving of the steps of all the downloads.
-/

namespace Demag

variable {M T P A D I ε : Type}

/-- src/main.rs:250-283 with src/magnet.rs:32-113 in its jobs: the batch, and what `get_torrent_file` works on in each download.  Downloads are
numbered as they are handed to the nursery. -/
structure Fleet (M T P A D I ε : Type) where
  batch : Batch M
  work : Nat → Option (Resolve T P A D I ε)

/-- src/main.rs:234-250: no download has begun. -/
def Fleet.start (magnets : Option (List M)) (jobs : Nat) : Fleet M T P A D I ε := ⟨Batch.start magnets jobs, fun _ => none⟩

/-- What may happen. -/
inductive FleetEvent (P D I ε : Type) where
  /-- something in the batch (but not the end of a download) -/
  | batch (e : BatchEvent)
  /-- download `n` begins; the DHT, if it has to be asked, has answered -/
  | begins (n : Nat) (dht : Except ε (List P × List D))
  /-- something in download `n` -/
  | goesOn (n : Nat) (e : ResolveEvent P ε I)
  /-- the download of worker `w` ends; `saved` is how saving ends, if there is something to save -/
  | ends (w : Nat) (saved : Outcome Bool)
  /-- something in what is left of the peer nursery of download `n` when it has its result -/
  | leftover (n : Nat) (e : NurseryEvent P (P × Except ε I))

/-- What can be observed. -/
inductive FleetOutput (M T P D I ε : Type) where
  | began (n : Nat) (m : M)
  | output (n : Nat) (o : ResolveOutput T P D I ε)
  | over (n : Nat) (m : M) (o : Outcome Bool)

/-- src/asyncutil/worker_nursery.rs:44-54: the job numbered `n` is being run by a worker. -/
def runningJob {J R : Type} (s : Nursery J R) (n : Nat) : Option J :=
  s.workers.findSome? fun
    | .running k j => if k = n then some j else none
    | _ => none

/-- src/asyncutil/worker_nursery.rs:44-54, 285-301: what may happen in a nursery whose stream is being dropped: the workers are aborted, but until
they are they go on. -/
def NurseryEvent.afterDrop {J R : Type} : NurseryEvent J R → Bool
  | .dropStream => true
  | .take _ => true
  | .check _ => true
  | .finish _ _ => true
  | .abort _ => true
  | _ => false

/-- src/magnet.rs:105-113, src/main.rs:257-267: how a download ends, from the result of `get_torrent_file` and how saving it ended. -/
def downloadOver (saved : Outcome Bool) : Resolved T D I ε → Outcome Bool
  | .file _ _ _ => saved
  | .dht _ => .value false
  | .nothing => .value false
  | .panicked => .panic

/-- src/main.rs:250-283, src/magnet.rs:32-113, step by step.  When the batch exits the program ends, and nothing more happens.  What is left of
the nursery of trackers when the download has its result, and the tasks that tell trackers that we stop, are not modelled here. -/
def Fleet.step [DecidableEq A] (addr : P → A) (trackers : M → List T) (jobsT jobsP : Nat) (f : Fleet M T P A D I ε)
    (e : FleetEvent P D I ε) : Option (Fleet M T P A D I ε × List (FleetOutput M T P D I ε)) :=
  if f.batch.exit.isSome then none
  else
    match e with
    | .batch (.ends _ _) => none
    | .batch e => (f.batch.step e).map fun r => ({ f with batch := r.1 }, [])
    | .begins n dht =>
      match runningJob f.batch.nursery n, f.work n with
      | some m, none =>
        some ({ f with work := fun k => if k = n then some (Resolve.start (trackers m) dht jobsT jobsP) else f.work k }, [.began n m])
      | _, _ => none
    | .goesOn n e =>
      match runningJob f.batch.nursery n, f.work n with
      | some m, some s =>
        (s.step addr (trackers m) e).map fun r => ({ f with work := fun k => if k = n then some r.1 else f.work k }, r.2.map (.output n))
      | _, _ => none
    | .ends w saved =>
      match f.batch.nursery.workers[w]? with
      | some (.running n m) =>
        match (f.work n).bind Resolve.result with
        | some r => (f.batch.step (.ends w (downloadOver saved r))).map fun b => ({ f with batch := b.1 }, [.over n m (downloadOver saved r)])
        | none => none
      | _ => none
    | .leftover n e =>
      match f.work n with
      | some s =>
        if s.result.isSome && e.afterDrop then
          (s.peers.step e).map fun r => ({ f with work := fun k => if k = n then some { s with peers := r.1 } else f.work k }, [])
        else none
      | none => none

/-- The runs of a batch, with all that happens in its downloads. -/
inductive FleetRun [DecidableEq A] (addr : P → A) (trackers : M → List T) (jobsT jobsP : Nat) (magnets : Option (List M)) (jobs : Nat) :
    List (FleetEvent P D I ε × List (FleetOutput M T P D I ε)) → Fleet M T P A D I ε → Prop
  | init : FleetRun addr trackers jobsT jobsP magnets jobs [] (Fleet.start magnets jobs)
  | step {tr : List (FleetEvent P D I ε × List (FleetOutput M T P D I ε))} {f f' : Fleet M T P A D I ε} {e : FleetEvent P D I ε}
      {out : List (FleetOutput M T P D I ε)} : FleetRun addr trackers jobsT jobsP magnets jobs tr f →
        f.step addr trackers jobsT jobsP e = some (f', out) → FleetRun addr trackers jobsT jobsP magnets jobs (tr ++ [(e, out)]) f'

end Demag
