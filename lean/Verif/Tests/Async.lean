import Verif.Model.Nursery

/-!
# The unit tests of `/repo/src/asyncutil`, run on the model

These are tests, not proofs of properties: they compare the model with the code on the inputs of the tests in `/repo`, which the code passes.
Each is run here in one order of events in which the test of the code may happen; that the order does not matter is what the theorems about
nurseries say.  `nursery_is_send` is about types of Rust only.
-/

namespace Demag.Tests

open Demag

/-- One way for the events to happen: the nursery afterwards and what was observed; `none` if they cannot happen in this order. -/
def nurseryExec (s : Nursery Nat Nat) : List (NurseryEvent Nat Nat) → Option (Nursery Nat Nat × List (NurseryOutput Nat Nat))
  | [] => some (s, [])
  | e :: es => (s.step e).bind fun r => (nurseryExec r.1 es).map fun q => (q.1, r.2 ++ q.2)
/-- What the stream gave: values, or that it panicked. -/
def streamGave (out : List (NurseryOutput Nat Nat)) : List (Outcome Nat) :=
  out.filterMap fun | .delivered _ o => some o | _ => none
/-- `is_closed` and `is_shutdown`. -/
def flagsAfter (es : List (NurseryEvent Nat Nat)) : Option (Bool × Bool) :=
  (nurseryExec (.new 5) es).map fun r => (r.1.closed, r.1.done)
/-- What the stream gives, with whether it ends after that. -/
def gaveAfter (es : List (NurseryEvent Nat Nat)) : Option (List (Outcome Nat) × Bool) :=
  (nurseryExec (.new 5) es).map fun r => (streamGave r.2, decide (NurseryOutput.ended ∈ r.2))
/-- Worker `w` takes a job that is ready and gives `r`. -/
def runJob (w r : Nat) : List (NurseryEvent Nat Nat) := [.take w, .check w, .finish w (.value r)]
/-- The five workers find the channel closed. -/
def exits : List (NurseryEvent Nat Nat) := (List.range 5).map .exit

/-- src/asyncutil/worker_nursery.rs:358-370 `collect` -/
example : flagsAfter ((List.range 20).map .spawn) = some (false, false) ∧
    flagsAfter ((List.range 20).map .spawn ++ [.dropHandle]) = some (true, false) ∧
    gaveAfter ((List.range 20).map .spawn ++ [.dropHandle] ++ (List.range 20).flatMap (fun i => runJob (i % 5) i) ++ exits ++
      List.replicate 20 .recv ++ [.recvNone]) = some ((List.range 20).map .value, true) := by decide +kernel
/-- src/asyncutil/worker_nursery.rs:372-383 `reraise_panic_recv` -/
example : gaveAfter [.spawn 0, .dropHandle, .take 0, .check 0, .finish 0 .panic, .recv] = some ([.panic], false) := by decide +kernel
/-- src/asyncutil/worker_nursery.rs:385-396 `reraise_panic_next` -/
example : gaveAfter [.spawn 0, .dropHandle, .take 0, .check 0, .finish 0 .panic, .recv] = some ([.panic], false) := by decide +kernel
/-- src/asyncutil/worker_nursery.rs:398-418 `close_receiver` -/
example : flagsAfter ((List.range 5).map .spawn) = some (false, false) ∧
    flagsAfter ((List.range 5).map .spawn ++ [.close, .spawn 5]) = some (true, false) ∧
    (nurseryExec (.new 5) ((List.range 5).map .spawn ++ [.close, .spawn 5])).map (fun r => r.2.getLast?) = some (some (.refused 5)) ∧
    gaveAfter ((List.range 5).map .spawn ++ [.close, .spawn 5, .dropHandle] ++ (List.range 5).flatMap (fun i => runJob i i) ++ exits ++
      List.replicate 5 .recv ++ [.recvNone]) = some ((List.range 5).map .value, true) := by decide +kernel
/-- src/asyncutil/worker_nursery.rs:420-440 `close_sender` -/
example : flagsAfter ((List.range 5).map .spawn) = some (false, false) ∧
    flagsAfter ((List.range 5).map .spawn ++ [.close, .spawn 5]) = some (true, false) ∧
    (nurseryExec (.new 5) ((List.range 5).map .spawn ++ [.close, .spawn 5])).map (fun r => r.2.getLast?) = some (some (.refused 5)) ∧
    gaveAfter ((List.range 5).map .spawn ++ [.close, .spawn 5, .dropHandle] ++ (List.range 5).flatMap (fun i => runJob i i) ++ exits ++
      List.replicate 5 .recv ++ [.recvNone]) = some ((List.range 5).map .value, true) := by decide +kernel
/-- src/asyncutil/worker_nursery.rs:442-469 `close_on_shutdown` -/
example : flagsAfter ((List.range 5).map .spawn) = some (false, false) ∧
    flagsAfter ((List.range 5).map .spawn ++ [.close, .setDone, .spawn 5]) = some (true, true) ∧
    flagsAfter ((List.range 5).map .spawn ++ [.close, .setDone, .spawn 5, .close, .setDone, .close, .setDone]) = some (true, true) ∧
    gaveAfter ((List.range 5).map .spawn ++ [.close, .setDone, .spawn 5, .dropHandle] ++ (List.range 5).flatMap (fun i => [.take i, .check i]) ++
      [.recvNone]) = some ([], true) := by decide +kernel
/-- src/asyncutil/worker_nursery.rs:471-478 `dropping_receiver_closes_sender` -/
example : flagsAfter [] = some (false, false) ∧ flagsAfter [.dropStream] = some (true, false) ∧
    (nurseryExec (.new 5) [.dropStream, .spawn 5]).map (·.2) = some [.refused 5] := by decide +kernel
/-- src/asyncutil/worker_nursery.rs:480-497 `queued_run_after_close` -/
example : (nurseryExec (.new 5) ((List.range 10).map .spawn ++ [.recv])).isNone ∧
    gaveAfter ((List.range 10).map .spawn ++ (List.range 5).flatMap (fun w => [.take w, .check w]) ++ [.close] ++
      (List.range 5).map (fun w => .finish w (.value w)) ++ (List.range 5).flatMap (fun w => runJob w (w + 5)) ++ exits ++
      List.replicate 10 .recv ++ [.recvNone]) = some ((List.range 10).map .value, true) := by decide +kernel
/-- src/asyncutil/worker_nursery.rs:499-518 `queued_not_run_after_recv_shutdown` -/
example : gaveAfter ((List.range 10).map .spawn ++ (List.range 5).flatMap (fun w => [.take w, .check w]) ++ [.close, .setDone] ++
      (List.range 5).flatMap (fun w => [.finish w (.value w), .take w, .check w]) ++ List.replicate 5 .recv ++ [.recvNone]) =
    some ((List.range 5).map .value, true) := by decide +kernel
/-- src/asyncutil/worker_nursery.rs:520-539 `queued_not_run_after_send_shutdown` -/
example : gaveAfter ((List.range 10).map .spawn ++ (List.range 5).flatMap (fun w => [.take w, .check w]) ++ [.close, .setDone] ++
      (List.range 5).flatMap (fun w => [.finish w (.value w), .take w, .check w]) ++ List.replicate 5 .recv ++ [.recvNone]) =
    some ((List.range 5).map .value, true) := by decide +kernel
/-- src/asyncutil/worker_nursery.rs:541-557 `nested_spawn` -/
example : gaveAfter ([.clone, .spawn 1, .spawn 2, .spawn 3, .dropHandle, .take 0, .check 0, .spawn 0, .finish 0 (.value 1), .dropHandle] ++
      runJob 1 2 ++ runJob 2 3 ++ runJob 0 0 ++ exits ++ List.replicate 4 .recv ++ [.recvNone]) =
    some ([.value 1, .value 2, .value 3, .value 0], true) := by decide +kernel
/-- src/asyncutil/worker_nursery.rs:559-577 `no_close_until_drop` -/
example : (let before := [.spawn 1, .spawn 2, .spawn 3] ++ runJob 0 1 ++ runJob 1 2 ++ runJob 2 3 ++ List.replicate 3 .recv
    gaveAfter before = some ([.value 1, .value 2, .value 3], false) ∧ gaveAfter (before ++ [.recv]) = none ∧
    gaveAfter (before ++ [.exit 0]) = none ∧ gaveAfter (before ++ [.recvNone]) = none ∧
    gaveAfter (before ++ [.dropHandle] ++ exits ++ [.recvNone]) = some ([.value 1, .value 2, .value 3], true)) := by decide +kernel
/-- src/asyncutil/worker_nursery.rs:579-596 `drop_tasks_on_drop_stream` -/
example : (nurseryExec (.new 5) [.spawn 7, .take 0, .check 0, .dropHandle, .dropStream, .abort 0]).map (fun r => r.2.getLast?) =
    some (some (.aborted 0)) := by decide +kernel
/-- src/asyncutil/worker_nursery.rs:598-617 `nest_nurseries` -/
example : gaveAfter ([.spawn 1, .spawn 2, .spawn 3, .dropHandle] ++ runJob 0 1 ++ runJob 1 2 ++ runJob 2 3 ++ exits ++
      List.replicate 3 .recv ++ [.recvNone]) = some ([.value 1, .value 2, .value 3], true) ∧
    gaveAfter ([.spawn 0, .spawn 4, .spawn 5, .dropHandle, .take 0, .check 0] ++ runJob 1 4 ++ runJob 2 5 ++ [.finish 0 (.value (1 + 2 + 3))] ++ exits ++
      List.replicate 3 .recv ++ [.recvNone]) = some ([.value 4, .value 5, .value 6], true) := by decide +kernel

/-- `u32::count_ones` -/
def countOnes (n : Nat) : Nat := ((List.range 32).filter fun i => n.testBit i).length
/-- src/asyncutil/unique_stream.rs:70-77 `test_unique_by_stream` -/
example : uniquePolls countOnes 4 [] [.item 4, .item 10, .item 20, .item 30, .item 8, .ended] =
    [.item 4, .item 10, .item 30, .ended] := by decide +kernel

/-- One way for the events to happen, at these times. -/
def groupExec (s : ShutdownGroup) : List (Nat × ShutdownEvent) → Option ShutdownGroup
  | [] => some s
  | (t, e) :: es => (s.step t e).bind fun s => groupExec s es
/-- src/asyncutil/shutdown_group.rs:49-71 `test_shutdown_group` -/
example : (groupExec {} [(0, .spawn), (0, .spawn), (0, .shutdown 1), (0, .taskEnds 0)]).map (fun s => (s.tasks, s.cancelled)) = some ([1], false) ∧
    (groupExec {} [(0, .spawn), (0, .spawn), (0, .shutdown 1), (0, .taskEnds 0), (1, .timeout), (1, .taskEnds 1), (1, .rejoined)]).map
      (fun s => (s.tasks, s.cancelled, s.phase)) = some ([], true, .over) ∧
    (groupExec {} [(0, .spawn), (0, .spawn), (0, .shutdown 1), (0, .taskEnds 0), (0, .timeout)]).isNone := by decide +kernel

end Demag.Tests
