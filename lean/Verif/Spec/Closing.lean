import Verif.Model.Closing
import Verif.Spec.TrackerSession

/-!
# Specification: how the program ends

What can be read off a run with all the trackers that are asked.
-/

namespace Demag.Spec

variable {T ε : Type}

/-- A trace: times, events and what could be observed. -/
abbrev ClosingTrace (T ε : Type) := List (Nat × ClosingEvent T ε × List (GetterOutput ε))

/-- What happened while tracker `n` was asked, all else left out. -/
def asked (n : Nat) (tr : ClosingTrace T ε) : GetterTrace ε :=
  tr.filterMap fun x =>
    match x.2.1 with
    | .asking k e => if k = n then some (e, x.2.2) else none
    | _ => none

/-- The trackers asked, in the order in which this began. -/
def askBegun (tr : ClosingTrace T ε) : List (T × GetterCtx) :=
  tr.filterMap fun x =>
    match x.2.1 with
    | .begins t c => some (t, c)
    | _ => none

/-- Tracker `n` has given peers. -/
def GavePeers (tr : ClosingTrace T ε) (n : Nat) : Prop := ∃ ps, .ok ps ∈ results (asked n tr)

/-- That we have stopped was announced to tracker `n`, and it has answered or this has failed. -/
def ToldStop (tr : ClosingTrace T ε) (n : Nat) (c : GetterCtx) : Prop :=
  announcements (asked n tr) = [c.announcement .started, c.announcement .stopped] ∧
    ((∃ r, GetterEvent.stopOk r ∈ happened (asked n tr)) ∨ ∃ e, GetterEvent.stopErr e ∈ happened (asked n tr))

/-- The announcement to tracker `n` that we have stopped was given up at the time `now`. -/
def GivenUp (tr : ClosingTrace T ε) (n now : Nat) : Prop := ∃ out, (now, ClosingEvent.asking n .stopCancelled, out) ∈ tr

/-- The command ended at the time `now`. -/
def CommandEnded (tr : ClosingTrace T ε) (now : Nat) : Prop := ∃ out, (now, ClosingEvent.commandEnds, out) ∈ tr

/-- The program is ready to exit. -/
def Exited (tr : ClosingTrace T ε) : Prop := ∃ now out, (now, ClosingEvent.rejoined, out) ∈ tr

end Demag.Spec
