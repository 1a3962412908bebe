import Verif.Spec.Resolve
import Verif.Model.Fleet

/-!
# Specification: the downloads of a batch, side by side

What can be read off a run of a batch.
-/

namespace Demag.Spec

variable {M T P A D I ε : Type}

/-- A trace: events, each with what could be observed at it. -/
abbrev FleetTrace (M T P D I ε : Type) := List (FleetEvent P D I ε × List (FleetOutput M T P D I ε))

/-- What is observed of a download. -/
def outputOf : FleetOutput M T P D I ε → Option (ResolveOutput T P D I ε)
  | .output _ o => some o
  | _ => none

/-- What happened in download `n`, all else left out. -/
def alone (n : Nat) (tr : FleetTrace M T P D I ε) : ResolveTrace T P D I ε :=
  tr.filterMap fun x =>
    match x.1 with
    | .goesOn k e => if k = n then some (e, x.2.filterMap outputOf) else none
    | _ => none

/-- The magnet link whose download is over, and how it ended. -/
def overOf : FleetOutput M T P D I ε → Option (M × Outcome Bool)
  | .over _ m o => some (m, o)
  | _ => none

/-- The downloads that are over, and how they ended, in this order. -/
def overs (tr : FleetTrace M T P D I ε) : List (M × Outcome Bool) := (tr.flatMap Prod.snd).filterMap overOf

/-- Download `n`, of the link `m`, has begun. -/
def Began (tr : FleetTrace M T P D I ε) (n : Nat) (m : M) : Prop := FleetOutput.began n m ∈ tr.flatMap Prod.snd

/-- Download `n`, of the link `m`, has ended like this. -/
def Over (tr : FleetTrace M T P D I ε) (n : Nat) (m : M) (o : Outcome Bool) : Prop := FleetOutput.over n m o ∈ tr.flatMap Prod.snd

/-- Download `n`, of the link `m`, has ended like this, given the result `r`: if there is a torrent file then as saving it ended. -/
def EndedWith (tr : FleetTrace M T P D I ε) (n : Nat) (m : M) (o : Outcome Bool) (r : Resolved T D I ε) : Prop :=
  ∃ w saved, (FleetEvent.ends w saved, [FleetOutput.over n m o]) ∈ tr ∧
    match r with
    | .file _ _ _ => o = saved
    | .dht _ => o = .value false
    | .nothing => o = .value false
    | .panicked => o = .panic

/-- Download `n` has begun and is not over. -/
def InProgress (tr : FleetTrace M T P D I ε) (n : Nat) : Prop := (∃ m, Began tr n m) ∧ ∀ m o, ¬ Over tr n m o

/-- The answer of the DHT for download `n`. -/
def DhtSaid (tr : FleetTrace M T P D I ε) (n : Nat) (dht : Except ε (List P × List D)) : Prop := ∃ out, (FleetEvent.begins n dht, out) ∈ tr

/-- The workers of a nursery that run a job. -/
def busy {J R : Type} (s : Nursery J R) : Nat := s.workers.countP fun w => match w with | .running _ _ => true | _ => false

/-- How many peers are being asked for download `n`. -/
def peersAsked (f : Fleet M T P A D I ε) (n : Nat) : Nat := ((f.work n).map fun s => busy s.peers).getD 0

/-- How many trackers are being asked for download `n`. -/
def trackersAsked (f : Fleet M T P A D I ε) (n : Nat) : Nat := (((f.work n).bind Resolve.trackers).map busy).getD 0

/-- The event is one of download `n`, or of what is left of it. -/
def OfDownload (n : Nat) : FleetEvent P D I ε → Prop
  | .begins k _ => k = n
  | .goesOn k _ => k = n
  | .leftover k _ => k = n
  | _ => False

end Demag.Spec
