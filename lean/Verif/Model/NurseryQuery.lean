import Verif.Model.Nursery

/-!
# What a worker nursery says about itself: the rest of `/repo/src/asyncutil/worker_nursery.rs`

The functions here only look at the shared state; the events of `Verif.Model.Nursery` change it.
-/

namespace Demag

variable {J R : Type}

/-- src/asyncutil/worker_nursery.rs:89-91, 207-209, 288-290 `close`: what it returns when it is called in state `s`.  `async_channel`'s `close`
returns whether the channel was open.  The call itself is the event `close`. -/
def Nursery.closeAnswer (s : Nursery J R) : Bool := !s.closed

/-- src/asyncutil/worker_nursery.rs:94-96, 214-216, 292-294 `is_closed`.  `async_channel`'s `is_closed` is also true when all senders, or all
receivers, are gone, which `closed` covers. -/
def Nursery.isClosed (s : Nursery J R) : Bool := s.closed

/-- src/asyncutil/worker_nursery.rs:104-107, 224-227 `shutdown`: what the `swap` in state `s` makes it return.  The `swap` is the event
`setDone`. -/
def Nursery.shutdownAnswer (s : Nursery J R) : Bool := !s.done

/-- src/asyncutil/worker_nursery.rs:110-112, 230-232 `is_shutdown`. -/
def Nursery.isShutdown (s : Nursery J R) : Bool := s.done

/-- src/asyncutil/worker_nursery.rs:115-117 `WorkerNursery::is_empty`. -/
def Nursery.inputIsEmpty (s : Nursery J R) : Bool := s.queue.isEmpty

/-- src/asyncutil/worker_nursery.rs:120-122 `WorkerNursery::len`. -/
def Nursery.inputLen (s : Nursery J R) : Nat := s.queue.length

/-- src/asyncutil/worker_nursery.rs:235-237 `WorkerNurseryStream::is_empty`. -/
def Nursery.outputIsEmpty (s : Nursery J R) : Bool := s.outputs.isEmpty

/-- src/asyncutil/worker_nursery.rs:240-242 `WorkerNurseryStream::len`. -/
def Nursery.outputLen (s : Nursery J R) : Nat := s.outputs.length

/-- `tokio::sync::mpsc::error::TryRecvError`. -/
inductive MpscTryRecvError where
  | empty
  | disconnected
  deriving DecidableEq

/-- src/asyncutil/worker_nursery.rs:314-318 `TryRecvError`. -/
inductive TryRecvError where
  | empty
  | done
  deriving DecidableEq

/-- src/asyncutil/worker_nursery.rs:331-338 `From<mpsc::error::TryRecvError> for TryRecvError`. -/
def TryRecvError.ofMpsc : MpscTryRecvError → TryRecvError
  | .empty => .empty
  | .disconnected => .done

/-- `mpsc::UnboundedReceiver::try_recv` (tokio): the oldest message; without one, whether a sender is left.  The senders are held by the
workers (src/asyncutil/worker_nursery.rs:42), the one made by `new` is dropped there. -/
def Nursery.mpscTryRecv (s : Nursery J R) : Except MpscTryRecvError (Nat × Outcome R) :=
  match s.outputs with
  | x :: _ => .ok x
  | [] => .error (if s.workers.all (fun w => match w with | .stopped => true | _ => false) then .disconnected else .empty)

/-- src/asyncutil/worker_nursery.rs:191-196 `WorkerNurseryStream::try_recv`, in state `s`: the outcome it gives (a panic is resumed), with
the number of the job; or its error.  If it gives an outcome, the call is the event `recv`. -/
def Nursery.tryRecv (s : Nursery J R) : Except TryRecvError (Nat × Outcome R) :=
  match s.mpscTryRecv with
  | .ok x => .ok x
  | .error e => .error (.ofMpsc e)

/-- src/asyncutil/worker_nursery.rs:306-310 `Display for SpawnError`. -/
def spawnErrorText : Text := "could not spawn future in nursery as it is closed".toList

/-- src/asyncutil/worker_nursery.rs:320-327 `Display for TryRecvError`. -/
def TryRecvError.text : TryRecvError → Text
  | .empty => "nursery output stream is empty".toList
  | .done => "nursery is done".toList

end Demag
