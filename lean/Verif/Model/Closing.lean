import Verif.Model.TrackerSession
import Verif.Model.Nursery

/-!
# The end of the program: the model of `/repo/src/main.rs` 103-105 and `/repo/src/app.rs` 61-71 with `/repo/src/asyncutil/shutdown_group.rs`
and the tasks of `/repo/src/tracker/mod.rs` 84-96 in it

All the trackers that the program asks (for one download or many) share one group of tasks that tell trackers that we have stopped.
-/

namespace Demag

variable {T ε : Type}

/-- A tracker that is being asked (src/tracker/mod.rs:60-98), with the number in the group of the task it has left behind. -/
structure Asking (T : Type) where
  tracker : T
  ctx : GetterCtx
  state : GetterState
  task : Option Nat

/-- The trackers asked, in the order in which this began, and src/app.rs:16 `shutdown_group`. -/
structure Closing (T : Type) where
  askings : List (Asking T)
  group : ShutdownGroup

/-- What may happen. -/
inductive ClosingEvent (T ε : Type) where
  /-- a tracker begins to be asked -/
  | begins (t : T) (c : GetterCtx)
  /-- something happens while tracker `n` is asked, or in the task that is left behind -/
  | asking (n : Nat) (e : GetterEvent ε)
  /-- the command ends, and `shutdown` is called -/
  | commandEnds
  /-- `shutdown` finds no task left; gives up waiting; finds again no task left, and returns -/
  | joined
  | timeout
  | rejoined

/-- src/tracker/mod.rs:86: the task sees that the token is cancelled. -/
def GetterEvent.isCancel : GetterEvent ε → Bool
  | .stopCancelled => true
  | _ => false

/-- src/tracker/mod.rs:84 and src/asyncutil/shutdown_group.rs:20-28: what becomes of the group when asking goes from one state to the next, and the number
of the task. -/
def ShutdownGroup.follow (g : ShutdownGroup) (now : Nat) (task : Option Nat) (before after : StopTask) : Option (ShutdownGroup × Option Nat) :=
  if before = .absent ∧ after ≠ .absent then (g.step now .spawn).map fun g' => (g', some g.next)
  else if before ≠ .over ∧ after = .over then
    match task with
    | some i => (g.step now (.taskEnds i)).map fun g' => (g', task)
    | none => none
  else some (g, task)

/-- One event at the time `now`, or `none` if it cannot happen; `grace` is `shutdown-timeout`.  Tasks that are aborted when a download is over may go on
for a while, even beyond the end of `shutdown`.  Simplification: a task is gone from the group as soon as it ends. -/
def Closing.step (grace now : Nat) (s : Closing T) : ClosingEvent T ε → Option (Closing T × List (GetterOutput ε))
  | .begins t c => some ({ s with askings := s.askings ++ [⟨t, c, .init, none⟩] }, [])
  | .asking n e =>
    match s.askings[n]? with
    | none => none
    | some a =>
      if e.isCancel && !s.group.cancelled then none
      else
        match a.state.step a.ctx e with
        | none => none
        | some (st, out) =>
          match s.group.follow now a.task a.state.task st.task with
          | none => none
          | some (g, task) => some (⟨s.askings.set n { a with state := st, task := task }, g⟩, out)
  | .commandEnds => (s.group.step now (.shutdown grace)).map fun g => ({ s with group := g }, [])
  | .joined => (s.group.step now .joined).map fun g => ({ s with group := g }, [])
  | .timeout => (s.group.step now .timeout).map fun g => ({ s with group := g }, [])
  | .rejoined => (s.group.step now .rejoined).map fun g => ({ s with group := g }, [])

/-- The runs: events with their times and what could be observed. -/
inductive ClosingRun (grace : Nat) : List (Nat × ClosingEvent T ε × List (GetterOutput ε)) → Closing T → Prop
  | init : ClosingRun grace [] ⟨[], {}⟩
  | step {tr : List (Nat × ClosingEvent T ε × List (GetterOutput ε))} {s s' : Closing T} {now : Nat} {e : ClosingEvent T ε}
      {out : List (GetterOutput ε)} : ClosingRun grace tr s → (∀ x ∈ tr, x.1 ≤ now) → s.step grace now e = some (s', out) →
      ClosingRun grace (tr ++ [(now, e, out)]) s'

end Demag
