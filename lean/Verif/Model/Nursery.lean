import Verif.Model.Wire

/-!
# Worker nurseries, unique streams and shutdown groups: the model of `/repo/src/asyncutil`

Channels, atomics and tasks are those of `async_channel`, `tokio` and std; an event is one atomic action of one task, so that a
list of events is an interleaving.
-/

namespace Demag

/-! ### `UniqueByStream` -/

/-- What polling a stream may give (`Poll<Option<T>>`, std). -/
inductive StreamPoll (α : Type) where
  | pending
  | item (x : α)
  | ended
  deriving DecidableEq

/-- src/asyncutil/unique_stream.rs:51-63 `UniqueByStream::poll_next`.  The inner stream is the list of what polling it gives,
one entry for each poll; once the list is used up it is pending.  The result is what the poll gives, the new `seen` and the
rest of the inner stream. -/
def uniquePoll {α κ : Type} [DecidableEq κ] (key : α → κ) : List κ → List (StreamPoll α) →
    StreamPoll α × List κ × List (StreamPoll α)
  | seen, [] => (.pending, seen, [])
  | seen, .pending :: r => (.pending, seen, r)
  | seen, .ended :: r => (.ended, seen, r)
  | seen, .item x :: r => if key x ∈ seen then uniquePoll key seen r else (.item x, key x :: seen, r)

/-- Polling `n` times a `UniqueByStream` made by src/asyncutil/unique_stream.rs:32-40 (for which `seen` is empty). -/
def uniquePolls {α κ : Type} [DecidableEq κ] (key : α → κ) : Nat → List κ → List (StreamPoll α) → List (StreamPoll α)
  | 0, _, _ => []
  | n + 1, seen, inner =>
    let p := uniquePoll key seen inner
    p.1 :: uniquePolls key n p.2.1 p.2.2

/-! ### `WorkerNursery` -/

variable {J R : Type}

/-- `UnwindResult<T>` (src/asyncutil/worker_nursery.rs:15): the value of a future, or that it panicked. -/
inductive Outcome (R : Type) where
  | value (r : R)
  | panic
  deriving DecidableEq

/-- Where a worker (src/asyncutil/worker_nursery.rs:44-54) is: waiting in `input.recv()`; with a job received but `done` not
yet examined; awaiting the job; ended.  Jobs are numbered as they are accepted by `spawn`. -/
inductive Worker (J : Type) where
  | waiting
  | received (n : Nat) (j : J)
  | running (n : Nat) (j : J)
  | stopped
  deriving DecidableEq

/-- The shared state of a `WorkerNursery` and its `WorkerNurseryStream`
(src/asyncutil/worker_nursery.rs:25-28, 148-153): the input channel (its contents, whether it is closed, the number of
senders), the flag `done`, the workers, the output channel and whether its receiver is alive.  `next` counts the jobs accepted
so far; it is there only to number them. -/
structure Nursery (J R : Type) where
  queue : List (Nat × J)
  closed : Bool
  handles : Nat
  done : Bool
  workers : List (Worker J)
  outputs : List (Nat × Outcome R)
  alive : Bool
  next : Nat

/-- src/asyncutil/worker_nursery.rs:34-69 `WorkerNursery::new`.  The sender of the output channel and the receiver of the input
channel made there live on only in the workers and (the latter) in the stream. -/
def Nursery.new (workers : Nat) : Nursery J R :=
  ⟨[], false, 1, false, List.replicate workers .waiting, [], true, 0⟩

/-- What may happen. -/
inductive NurseryEvent (J R : Type) where
  /-- `spawn` on some handle -/
  | spawn (j : J)
  /-- a handle is cloned -/
  | clone
  /-- a handle is dropped -/
  | dropHandle
  /-- `close` on a handle or the stream; also the first half of `shutdown` -/
  | close
  /-- the second half of `shutdown` -/
  | setDone
  /-- worker `w` receives a job -/
  | take (w : Nat)
  /-- worker `w` examines `done` and goes on accordingly -/
  | check (w : Nat)
  /-- worker `w`'s job ends and its outcome is sent -/
  | finish (w : Nat) (o : Outcome R)
  /-- worker `w` finds the input channel closed and empty -/
  | exit (w : Nat)
  /-- the stream is polled and gives the next output -/
  | recv
  /-- the stream is polled and gives `None` -/
  | recvNone
  /-- the stream is dropped -/
  | dropStream
  /-- worker `w`, aborted by the drop of the stream, is gone -/
  | abort (w : Nat)
  deriving DecidableEq

/-- What can be observed of it. -/
inductive NurseryOutput (J R : Type) where
  /-- `spawn` gave `Ok(())` -/
  | accepted (n : Nat) (j : J)
  /-- `spawn` gave `Err(SpawnError)` -/
  | refused (j : J)
  /-- the job left the queue -/
  | took (n : Nat)
  /-- the job's future was polled for the first time -/
  | began (n : Nat)
  /-- the job's future was dropped without having been polled -/
  | discarded (n : Nat)
  /-- the job's future completed (or panicked) and the outcome was sent -/
  | finished (n : Nat) (o : Outcome R)
  /-- the job's future completed but nobody was there to receive the outcome -/
  | lost (n : Nat)
  /-- the job's future was dropped while running -/
  | aborted (n : Nat)
  /-- the stream gave the outcome (resuming the panic, if it is one) -/
  | delivered (n : Nat) (o : Outcome R)
  /-- the stream gave `None` -/
  | ended
  deriving DecidableEq

/-- src/asyncutil/worker_nursery.rs: `spawn` (75-80), `close` (89-91, 207-209), `shutdown` (104-107, 224-227), `clone` (127-134), the
worker loop (44-54), `poll_recv` (258-264), the drop of the stream with its `Closer` (285-301) and its `JoinSet`.  `none`: the event cannot
happen. -/
def Nursery.step (s : Nursery J R) : NurseryEvent J R → Option (Nursery J R × List (NurseryOutput J R))
  | .spawn j =>
    if s.handles = 0 then none
    else if s.closed then some (s, [.refused j])
    else some ({ s with queue := s.queue ++ [(s.next, j)], next := s.next + 1 }, [.accepted s.next j])
  | .clone => if s.handles = 0 then none else some ({ s with handles := s.handles + 1 }, [])
  | .dropHandle =>
    if s.handles = 0 then none
    else some ({ s with handles := s.handles - 1, closed := s.closed || s.handles == 1 }, [])
  | .close => if s.handles = 0 && !s.alive then none else some ({ s with closed := true }, [])
  | .setDone => if s.closed then some ({ s with done := true }, []) else none
  | .take w =>
    match s.workers[w]?, s.queue with
    | some .waiting, (n, j) :: q => some ({ s with queue := q, workers := s.workers.set w (.received n j) }, [.took n])
    | _, _ => none
  | .check w =>
    match s.workers[w]? with
    | some (.received n j) =>
      if s.done then some ({ s with workers := s.workers.set w .stopped }, [.discarded n])
      else some ({ s with workers := s.workers.set w (.running n j) }, [.began n])
    | _ => none
  | .finish w o =>
    match s.workers[w]? with
    | some (.running n _) =>
      if s.alive then some ({ s with outputs := s.outputs ++ [(n, o)], workers := s.workers.set w .waiting }, [.finished n o])
      else some ({ s with workers := s.workers.set w .stopped }, [.lost n])
    | _ => none
  | .exit w =>
    match s.workers[w]?, s.queue with
    | some .waiting, [] => if s.closed then some ({ s with workers := s.workers.set w .stopped }, []) else none
    | _, _ => none
  | .recv =>
    if s.alive then
      match s.outputs with
      | (n, o) :: r => some ({ s with outputs := r }, [.delivered n o])
      | [] => none
    else none
  | .recvNone =>
    if s.alive && s.outputs.isEmpty && s.workers.all (fun w => match w with | .stopped => true | _ => false)
    then some (s, [.ended]) else none
  | .dropStream => if s.alive then some ({ s with alive := false, closed := true }, []) else none
  | .abort w =>
    if s.alive then none
    else
      match s.workers[w]? with
      | some (.running n _) => some ({ s with workers := s.workers.set w .stopped }, [.aborted n])
      | some (.received n _) => some ({ s with workers := s.workers.set w .stopped }, [.discarded n])
      | some .waiting => some ({ s with workers := s.workers.set w .stopped }, [])
      | _ => none

/-- The runs of a nursery: events with what could be observed at each. -/
inductive NurseryRun (workers : Nat) : List (NurseryEvent J R × List (NurseryOutput J R)) → Nursery J R → Prop
  | init : NurseryRun workers [] (Nursery.new workers)
  | step {tr : List (NurseryEvent J R × List (NurseryOutput J R))} {s s' : Nursery J R} {e : NurseryEvent J R}
      {out : List (NurseryOutput J R)} :
      NurseryRun workers tr s → s.step e = some (s', out) → NurseryRun workers (tr ++ [(e, out)]) s'

/-! ### `ShutdownGroup` -/

/-- Where `shutdown` (src/asyncutil/shutdown_group.rs:34-39) is: not called; in the first `join`, under the timeout; in the
second `join`; returned. -/
inductive ShutdownPhase where
  | open
  | grace
  | waiting
  | over
  deriving DecidableEq

/-- src/asyncutil/shutdown_group.rs:6-10 `ShutdownGroup`: the tasks that are not over (numbered as spawned), whether the tracker
is closed, whether the token is cancelled; with the state of `shutdown` and the time at which its timeout elapses. -/
structure ShutdownGroup where
  tasks : List Nat := []
  next : Nat := 0
  closed : Bool := false
  cancelled : Bool := false
  phase : ShutdownPhase := .open
  deadline : Nat := 0

/-- What may happen: a task is spawned; a task ends; `shutdown` is called; the first `join` is found complete; the timeout
elapses; the second `join` is found complete. -/
inductive ShutdownEvent where
  | spawn
  | taskEnds (n : Nat)
  | shutdown (duration : Nat)
  | joined
  | timeout
  | rejoined
  deriving DecidableEq

/-- src/asyncutil/shutdown_group.rs:20-39 `spawn`, `join`, `shutdown`, at the time `now`.  `TaskTracker::wait` (tokio-util) is
complete when the tracker is closed and no task is left; spawning on a closed tracker is possible.  `timeout` (tokio) polls the
`join` first, so that it elapses only while tasks are left. -/
def ShutdownGroup.step (s : ShutdownGroup) (now : Nat) : ShutdownEvent → Option ShutdownGroup
  | .spawn => some { s with tasks := s.tasks ++ [s.next], next := s.next + 1 }
  | .taskEnds n => if n ∈ s.tasks then some { s with tasks := s.tasks.erase n } else none
  | .shutdown d => if s.phase = .open then some { s with closed := true, phase := .grace, deadline := now + d } else none
  | .joined => if s.phase = .grace ∧ s.tasks = [] ∧ s.closed then some { s with phase := .waiting } else none
  | .timeout =>
    if s.phase = .grace ∧ s.tasks ≠ [] ∧ s.deadline ≤ now then some { s with cancelled := true, phase := .waiting } else none
  | .rejoined => if s.phase = .waiting ∧ s.tasks = [] ∧ s.closed then some { s with phase := .over } else none

/-- The runs of a shutdown group: events with their times. -/
inductive ShutdownRun : List (Nat × ShutdownEvent) → ShutdownGroup → Prop
  | init : ShutdownRun [] {}
  | step {es : List (Nat × ShutdownEvent)} {s s' : ShutdownGroup} {now : Nat} {e : ShutdownEvent} : ShutdownRun es s →
      (∀ x ∈ es, x.1 ≤ now) → s.step now e = some s' → ShutdownRun (es ++ [(now, e)]) s'

end Demag
