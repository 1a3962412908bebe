import Verif.Spec.Resolve

/-!
# Specification: how long downloads take

Runs of a download, and of a batch, in which events have times.  What the program does by itself takes no time; what it has to wait for are the tasks
in which trackers and peers are asked (or, for a batch, its downloads).
-/

namespace Demag.Spec

variable {T P A D I ε M : Type}

/-- `n` things done `W` at a time take so many rounds. -/
def rounds (n W : Nat) : Nat := (n + W - 1) / W

/-- The time of the last of the entries for which `p` holds. -/
def lastAt {E : Type} (p : E → Bool) (dflt : Nat) (tr : List (Nat × E)) : Nat := ((tr.filter fun x => p x.2).getLast?.map Prod.fst).getD dflt

/-- The time up to which things have happened. -/
def clock {E : Type} (t0 : Nat) (tr : List (Nat × E)) : Nat := lastAt (fun _ => true) t0 tr

/-- A trace of a download with the times of its events. -/
abbrev TimedTrace (T P D I ε : Type) := List (Nat × ResolveEvent P ε I × List (ResolveOutput T P D I ε))

/-- What the program has to wait for: the end of the task of a tracker or peer. -/
def awaited : ResolveEvent P ε I → Bool
  | .trackerEnds _ _ => true
  | .peerEnds _ _ => true
  | _ => false

/-- Worker `w` begins to ask a tracker. -/
def asksTracker (w : Nat) : ResolveEvent P ε I × List (ResolveOutput T P D I ε) → Bool
  | (.trackerCheck k, _) => k == w
  | _ => false

/-- Worker `w` begins to ask a peer. -/
def asksPeer (w : Nat) : ResolveEvent P ε I × List (ResolveOutput T P D I ε) → Bool
  | (.peerCheck k, _) => k == w
  | _ => false

/-- The runs of a download begun at `t0` in which no tracker is asked for longer than `dT` and no peer for longer than `dP`, and time passes only while
there is nothing that the program can do but wait for them. -/
inductive DownloadTimed [DecidableEq A] (addr : P → A) (all : List T) (dht : Except ε (List P × List D)) (jobsT jobsP dT dP t0 : Nat) :
    TimedTrace T P D I ε → Resolve T P A D I ε → Prop
  | init : DownloadTimed addr all dht jobsT jobsP dT dP t0 [] (.start all dht jobsT jobsP)
  | step {tr : TimedTrace T P D I ε} {s s' : Resolve T P A D I ε} {e : ResolveEvent P ε I} {out : List (ResolveOutput T P D I ε)} (now : Nat) :
      DownloadTimed addr all dht jobsT jobsP dT dP t0 tr s → clock t0 tr ≤ now →
      (clock t0 tr < now → ∀ e', awaited e' = false → s.step addr all e' = none) →
      (∀ w n t, (s.trackers.bind fun n => n.workers[w]?) = some (.running n t) → now ≤ lastAt (asksTracker w) t0 tr + dT) →
      (∀ w n p, s.peers.workers[w]? = some (.running n p) → now ≤ lastAt (asksPeer w) t0 tr + dP) →
      s.step addr all e = some (s', out) → DownloadTimed addr all dht jobsT jobsP dT dP t0 (tr ++ [(now, e, out)]) s'

/-- Worker `w` begins a download. -/
def beginsDownload (w : Nat) : BatchEvent × List (M × Outcome Bool) → Bool
  | (.check k, _) => k == w
  | _ => false

/-- What a batch has to wait for: the end of a download. -/
def downloadEnds : BatchEvent → Bool
  | .ends _ _ => true
  | _ => false

/-- The runs of a batch begun at `t0` in which no download takes longer than `d`, and time passes only while there is nothing that the program can do but
wait for them. -/
inductive BatchTimed (magnets : Option (List M)) (jobs d t0 : Nat) : List (Nat × BatchEvent × List (M × Outcome Bool)) → Batch M → Prop
  | init : BatchTimed magnets jobs d t0 [] (.start magnets jobs)
  | step {tr : List (Nat × BatchEvent × List (M × Outcome Bool))} {s s' : Batch M} {e : BatchEvent} {out : List (M × Outcome Bool)} (now : Nat) :
      BatchTimed magnets jobs d t0 tr s → clock t0 tr ≤ now →
      (clock t0 tr < now → ∀ e', downloadEnds e' = false → s.step e' = none) →
      (∀ w n m, s.nursery.workers[w]? = some (.running n m) → now ≤ lastAt (beginsDownload w) t0 tr + d) →
      s.step e = some (s', out) → BatchTimed magnets jobs d t0 (tr ++ [(now, e, out)]) s'

end Demag.Spec
