import Verif.Model.NurseryQuery
import Verif.Props.Nursery

/-!
# C87: what a nursery says about itself

`Spec.ClosedBy`, `Spec.ShutDown` and the lists of jobs are in `Verif.Spec.Nursery`; they speak of what has happened, not of the
nursery's state.
-/

namespace Demag

open Spec

variable {J R : Type}

theorem nursery_closedBy {N : Nat} {tr : NurseryTrace J R} {s : Nursery J R} (h : NurseryRun N tr s) :
    s.closed = true ↔ ClosedBy tr := by
  have hi := nursery_inv h
  have hh := hi.handles
  rw [hi.closed, ClosedBy]
  constructor
  · rintro (h | h)
    · exact .inl h
    · exact .inr (by omega)
  · rintro (h | h)
    · exact .inl h
    · exact .inr (by omega)

/-- A worker that has ended stays so, and the nursery does nothing more. -/
theorem nursery_over_step {s s' : Nursery J R} {e : NurseryEvent J R} {out : List (NurseryOutput J R)}
    (hs : s.step e = some (s', out)) (hw : ∀ w ∈ s.workers, w = .stopped) (ho : s.outputs = []) :
    (∀ w ∈ s'.workers, w = .stopped) ∧ s'.outputs = [] ∧ out.filterMap deliveredOf = [] ∧ out.filterMap beganOf = [] := by
  have hget : ∀ w x, s.workers[w]? = some x → x = Worker.stopped := fun w x hx => hw x (List.mem_of_getElem? hx)
  cases e with
  | spawn j =>
    simp only [Nursery.step] at hs
    split at hs
    · cases hs
    · split at hs <;> (cases hs; exact ⟨hw, ho, rfl, rfl⟩)
  | clone | dropHandle | close =>
    simp only [Nursery.step] at hs
    split at hs
    · cases hs
    · cases hs; exact ⟨hw, ho, rfl, rfl⟩
  | setDone | recvNone | dropStream =>
    simp only [Nursery.step] at hs
    split at hs
    · cases hs; exact ⟨hw, ho, rfl, rfl⟩
    · cases hs
  | take w =>
    simp only [Nursery.step] at hs
    split at hs
    · rename_i h1 _
      have := hget _ _ h1
      cases this
    · cases hs
  | check w =>
    simp only [Nursery.step] at hs
    split at hs
    · rename_i h1
      have := hget _ _ h1
      cases this
    · cases hs
  | finish w o =>
    simp only [Nursery.step] at hs
    split at hs
    · rename_i h1
      have := hget _ _ h1
      cases this
    · cases hs
  | exit w =>
    simp only [Nursery.step] at hs
    split at hs
    · rename_i h1 _
      have := hget _ _ h1
      cases this
    · cases hs
  | recv =>
    simp only [Nursery.step, ho] at hs
    split at hs <;> cases hs
  | abort w =>
    simp only [Nursery.step] at hs
    split at hs
    · cases hs
    · split at hs
      · rename_i h1; have := hget _ _ h1; cases this
      · rename_i h1; have := hget _ _ h1; cases this
      · rename_i h1; have := hget _ _ h1; cases this
      · cases hs

/-- What has happened determines the state. -/
theorem nurseryRun_unique {N : Nat} {tr : NurseryTrace J R} {s s' : Nursery J R} (h : NurseryRun N tr s) (h' : NurseryRun N tr s') :
    s = s' := by
  induction h generalizing s' with
  | init =>
    generalize hz : ([] : NurseryTrace J R) = z at h'
    cases h' with
    | init => rfl
    | step => simp at hz
  | step hr hs ih =>
    obtain ⟨s0, hr', hs'⟩ := Props.nurseryRun_snoc h'
    rw [ih hr', hs'] at hs
    cases hs
    rfl

theorem nurseryRun_split {N : Nat} {tr tr' : NurseryTrace J R} {s' : Nursery J R} (h : NurseryRun N (tr ++ tr') s')
    {P : Nursery J R → NurseryTrace J R → Prop} (h0 : ∀ s, NurseryRun N tr s → P s [])
    (hstep : ∀ s t e out s1, NurseryRun N (tr ++ t) s → P s t → s.step e = some (s1, out) → P s1 (t ++ [(e, out)])) : P s' tr' := by
  generalize hz : tr ++ tr' = z at h
  induction h generalizing tr' with
  | init =>
    simp only [List.append_eq_nil_iff] at hz
    rw [hz.2]
    exact h0 _ (hz.1 ▸ .init)
  | @step tr2 s0 s' e out hr hs ih =>
    rcases List.eq_nil_or_concat tr' with rfl | ⟨t, x, rfl⟩
    · rw [List.append_nil] at hz
      rw [hz] at h0
      exact h0 _ (.step hr hs)
    · rw [List.concat_eq_append, ← List.append_assoc] at hz
      obtain ⟨h1, h2⟩ := List.append_inj' hz rfl
      cases h2
      rw [List.concat_eq_append]
      exact hstep _ _ _ _ _ (h1 ▸ hr) (ih h1) hs

namespace Props

/-- **C87.** A nursery says that it is closed exactly if it has been closed, shut down, its stream dropped or its last handle dropped.
`close` answers `true` exactly if none of this had happened before. -/
theorem close_told {N : Nat} {tr : NurseryTrace J R} {s : Nursery J R} (h : NurseryRun N tr s) :
    (s.isClosed = true ↔ ClosedBy tr) ∧ (s.closeAnswer = true ↔ ¬ ClosedBy tr) := by
  rw [← nursery_closedBy h]
  cases hc : s.closed <;> simp [Nursery.isClosed, Nursery.closeAnswer, hc]

/-- **C87.** A job can be spawned exactly while the nursery does not say that it is closed: it is accepted or refused accordingly. -/
theorem spawn_told {N : Nat} {tr : NurseryTrace J R} {s' : Nursery J R} {j : J} {out : List (NurseryOutput J R)}
    (h : NurseryRun N (tr ++ [(.spawn j, out)]) s') :
    (ClosedBy tr → out = [.refused j]) ∧ (¬ ClosedBy tr → out = [.accepted (acceptedJobs tr).length j]) := by
  obtain ⟨s0, hr, hs⟩ := nurseryRun_snoc h
  have hn : (acceptedJobs tr).length = s0.next := by
    have := congrArg List.length (nursery_inv hr).accepted
    simpa using this
  rw [← nursery_closedBy hr, hn]
  simp only [Nursery.step] at hs
  split at hs
  · cases hs
  · cases hc : s0.closed with
    | true => simp only [hc, if_true] at hs; cases hs; exact ⟨fun _ => rfl, fun h => absurd rfl h⟩
    | false => simp only [hc, Bool.false_eq_true, if_false] at hs; cases hs; exact ⟨fun h => Bool.noConfusion h, fun _ => rfl⟩

/-- **C87.** Whoever closes a nursery after someone else is told so: at most one call of `close` answers `true`. -/
theorem close_once {N : Nat} {tr tr' : NurseryTrace J R} {s' : Nursery J R} {out : List (NurseryOutput J R)}
    (h : NurseryRun N (tr ++ [(.close, out)] ++ tr') s') : s'.closeAnswer = false ∧ s'.isClosed = true := by
  have : ClosedBy (tr ++ [(.close, out)] ++ tr') := .inl ⟨(.close, out), by simp, .inl rfl⟩
  rw [← nursery_closedBy h] at this
  simp [Nursery.closeAnswer, Nursery.isClosed, this]

/-- **C87.** A nursery says that it is shut down exactly if `shutdown` has been called (and has come to set the flag); exactly the first
such call answers `true`; and a nursery that is shut down is closed. -/
theorem shutdown_told {N : Nat} {tr : NurseryTrace J R} {s : Nursery J R} (h : NurseryRun N tr s) :
    (s.isShutdown = true ↔ ShutDown tr) ∧ (s.shutdownAnswer = true ↔ ¬ ShutDown tr) ∧ (s.isShutdown = true → s.isClosed = true) := by
  have hi := nursery_inv h
  rw [← hi.done]
  refine ⟨Iff.rfl, ?_, hi.doneClosed⟩
  cases hc : s.done <;> simp [Nursery.shutdownAnswer, hc]

/-- **C87.** The number a nursery gives as pending is that of the jobs accepted which no worker has taken yet; the number its stream gives
is that of the outcomes sent and not delivered yet. -/
theorem lengths_told {N : Nat} {tr : NurseryTrace J R} {s : Nursery J R} (h : NurseryRun N tr s) :
    s.inputLen + (tookJobs tr).length = (acceptedJobs tr).length ∧ (s.inputIsEmpty = true ↔ s.inputLen = 0) ∧
    s.outputLen + (deliveredJobs tr).length = (finishedJobs tr).length ∧ (s.outputIsEmpty = true ↔ s.outputLen = 0) := by
  have hi := nursery_inv h
  have h1 := congrArg List.length hi.accepted
  have h2 := congrArg List.length hi.queue
  have h3 := congrArg List.length hi.finished
  simp only [List.length_map, List.length_append, List.length_range] at h1 h2 h3
  refine ⟨?_, ?_, ?_, ?_⟩
  · simp only [Nursery.inputLen]; omega
  · simp [Nursery.inputIsEmpty, Nursery.inputLen, List.length_eq_zero_iff]
  · simp only [Nursery.outputLen]; omega
  · simp [Nursery.outputIsEmpty, Nursery.outputLen, List.length_eq_zero_iff]

/-- **C87.** If `try_recv` gives an outcome it is that of the first job which ended and whose outcome was not delivered yet.  If it gives an
error, the outcomes of all jobs that ended have been delivered. -/
theorem tryRecv_told {N : Nat} {tr : NurseryTrace J R} {s : Nursery J R} (h : NurseryRun N tr s) :
    (∀ x, s.tryRecv = .ok x → ∃ later, finishedJobs tr = deliveredJobs tr ++ x :: later) ∧
    (∀ e, s.tryRecv = .error e → finishedJobs tr = deliveredJobs tr) := by
  have hi := nursery_inv h
  simp only [Nursery.tryRecv, Nursery.mpscTryRecv]
  cases ho : s.outputs with
  | nil => rw [hi.finished, ho]; simp
  | cons y l =>
    rw [hi.finished, ho]
    constructor
    · intro x hx
      cases hx
      exact ⟨l, rfl⟩
    · intro e he
      cases he

/-- **C87.** If `try_recv` gives `Done`, then whatever happens later no outcome is delivered and no job begins, and `try_recv` goes on
giving `Done`; the nursery has been closed. -/
theorem tryRecv_done {N : Nat} {tr tr' : NurseryTrace J R} {s s' : Nursery J R} (h : NurseryRun N tr s) (hN : 0 < N)
    (hd : s.tryRecv = .error .done) (h' : NurseryRun N (tr ++ tr') s') :
    ClosedBy tr ∧ deliveredJobs (tr ++ tr') = deliveredJobs tr ∧ beganJobs (tr ++ tr') = beganJobs tr ∧
    s'.tryRecv = .error .done := by
  have hover : s.outputs = [] ∧ ∀ w ∈ s.workers, w = .stopped := by
    simp only [Nursery.tryRecv, Nursery.mpscTryRecv] at hd
    cases ho : s.outputs with
    | cons y l => rw [ho] at hd; cases hd
    | nil =>
      refine ⟨rfl, ?_⟩
      rw [ho] at hd
      simp only at hd
      split at hd
      · rename_i hall
        intro w hw
        have := List.all_eq_true.1 hall w hw
        cases w <;> simp_all
      · cases hd
  have hi := nursery_inv h
  refine ⟨?_, ?_⟩
  · rw [← nursery_closedBy h]
    cases hc : s.closed with
    | true => rfl
    | false =>
      refine absurd ?_ (hi.stopped hc)
      cases hws : s.workers with
      | nil => have := hi.workers; rw [hws] at this; simp at this; omega
      | cons a l => rw [← hover.2 a (by rw [hws]; simp)]; simp
  · have := nurseryRun_split h' (P := fun s1 t => (∀ w ∈ s1.workers, w = .stopped) ∧ s1.outputs = [] ∧
        deliveredJobs (tr ++ t) = deliveredJobs tr ∧ beganJobs (tr ++ t) = beganJobs tr)
      (fun t ht => by rw [nurseryRun_unique ht h, List.append_nil]; exact ⟨hover.2, hover.1, rfl, rfl⟩)
      (fun s0 t e out s1 _ hp hst => by
        obtain ⟨h1, h2, h3, h4⟩ := nursery_over_step hst hp.1 hp.2.1
        rw [← List.append_assoc, deliveredJobs_snoc, beganJobs_snoc, h3, h4, List.append_nil, List.append_nil]
        exact ⟨h1, h2, hp.2.2⟩)
    refine ⟨this.2.2.1, this.2.2.2, ?_⟩
    simp only [Nursery.tryRecv, Nursery.mpscTryRecv, this.2.1]
    rw [if_pos]
    · rfl
    · rw [List.all_eq_true]
      intro w hw
      rw [this.1 w hw]

/-- **C87.** Conversely, when a closed nursery that was neither shut down nor dropped has come to rest (no worker can do anything, and the
stream has delivered what there was), `try_recv` gives `Done`. -/
theorem tryRecv_rest {N : Nat} {tr : NurseryTrace J R} {s : Nursery J R} (h : NurseryRun N tr s) (hN : 0 < N)
    (hd : ¬ ShutDown tr) (hst : ¬ StreamDropped tr) (hc : ClosedBy tr) (hstuck : ∀ e, Internal e → s.step e = none) :
    s.tryRecv = .error .done := by
  have := (nursery_progress h hN hd hst hstuck).2 hc
  simp only [Nursery.step] at this
  split at this
  · rename_i hw
    simp only [Bool.and_eq_true, List.isEmpty_iff] at hw
    simp only [Nursery.tryRecv, Nursery.mpscTryRecv, hw.1.2]
    rw [if_pos]
    · rfl
    · exact hw.2
  · cases this

/-! ### A concrete nursery -/

/-- What happens in a nursery by events, from a state with a trace. -/
def execFrom (x : NurseryTrace J R × Nursery J R) : List (NurseryEvent J R) → Option (NurseryTrace J R × Nursery J R)
  | [] => some x
  | e :: es =>
    match x.2.step e with
    | none => none
    | some y => execFrom (x.1 ++ [(e, y.2)], y.1) es

theorem execFrom_run {N : Nat} (es : List (NurseryEvent J R)) {x y : NurseryTrace J R × Nursery J R}
    (hx : NurseryRun N x.1 x.2) (h : execFrom x es = some y) : NurseryRun N y.1 y.2 := by
  induction es generalizing x with
  | nil => cases h; exact hx
  | cons e es ih =>
    simp only [execFrom] at h
    split at h
    · cases h
    · rename_i z hz
      exact ih (.step hx hz) h

/-- What happens in a nursery of `N` workers by events. -/
def execNursery (N : Nat) (es : List (NurseryEvent J R)) : Option (NurseryTrace J R × Nursery J R) := execFrom ([], Nursery.new N) es

theorem execNursery_run {N : Nat} (es : List (NurseryEvent J R)) {x : NurseryTrace J R × Nursery J R}
    (h : execNursery N es = some x) : NurseryRun N x.1 x.2 := execFrom_run es (x := ([], Nursery.new N)) .init h

/-- What the documentation of `try_recv` says is not so: the nursery is closed, the stream is empty, and `try_recv` gives `Empty`, for a
job is still running. -/
theorem tryRecv_closed_empty : ∃ (tr : NurseryTrace Nat Nat) (s : Nursery Nat Nat), NurseryRun 2 tr s ∧ ClosedBy tr ∧
    s.isClosed = true ∧ s.outputIsEmpty = true ∧ s.tryRecv = .error .empty := by
  have h : (execNursery 2 [.spawn 5, .take 1, .check 1, .close] : Option (NurseryTrace Nat Nat × Nursery Nat Nat)).map
      (fun x => (x.2.isClosed, x.2.outputIsEmpty, x.2.tryRecv)) = some (true, true, .error .empty) := by decide +kernel
  rw [Option.map_eq_some_iff] at h
  obtain ⟨x, hx, h⟩ := h
  simp only [Prod.mk.injEq] at h
  have hr := execNursery_run _ hx
  exact ⟨x.1, x.2, hr, (close_told hr).1.1 h.1, h.1, h.2.1, h.2.2⟩

/-- Two jobs, one of which panics; `close` answers `true` once; `try_recv` gives both outcomes and then `Done`. -/
example : ∃ x, execNursery 1 [.spawn 5, .spawn 6, .take 0, .close, .check 0, .finish 0 (.value 50), .take 0, .check 0, .finish 0 .panic] = some x ∧
    NurseryRun 1 x.1 x.2 ∧ (x.2 : Nursery Nat Nat).tryRecv = .ok (0, .value 50) ∧ x.2.outputLen = 2 ∧ x.2.closeAnswer = false := by
  have h : (execNursery 1 [.spawn 5, .spawn 6, .take 0, .close, .check 0, .finish 0 (.value 50), .take 0, .check 0, .finish 0 .panic] :
      Option (NurseryTrace Nat Nat × Nursery Nat Nat)).map
      (fun x => (x.2.tryRecv, x.2.outputLen, x.2.closeAnswer)) = some (.ok (0, .value 50), 2, false) := by decide +kernel
  rw [Option.map_eq_some_iff] at h
  obtain ⟨x, hx, h⟩ := h
  simp only [Prod.mk.injEq] at h
  exact ⟨x, hx, execNursery_run _ hx, h.1, h.2.1, h.2.2⟩

example : ∃ x, execNursery 1 [.spawn 5, .take 0, .check 0, .finish 0 (.value 50), .dropHandle, .recv, .exit 0] = some x ∧
    NurseryRun 1 x.1 x.2 ∧ (x.2 : Nursery Nat Nat).tryRecv = .error .done := by
  have h : (execNursery 1 [.spawn 5, .take 0, .check 0, .finish 0 (.value 50), .dropHandle, .recv, .exit 0] :
      Option (NurseryTrace Nat Nat × Nursery Nat Nat)).map (fun x => x.2.tryRecv) = some (.error .done) := by decide +kernel
  rw [Option.map_eq_some_iff] at h
  obtain ⟨x, hx, h⟩ := h
  exact ⟨x, hx, execNursery_run _ hx, h⟩

/-- Before the first `spawn` is refused the nursery says that it is closed, and `shutdown` answers `true` once. -/
example : ∃ x, execNursery 1 [.spawn 5, .close, .setDone, .spawn 6] = some x ∧ NurseryRun 1 x.1 x.2 ∧
    (x.2 : Nursery Nat Nat).inputLen = 1 ∧ x.2.shutdownAnswer = false ∧ (observed x.1).getLast? = some (.refused 6) := by
  have h : (execNursery 1 [.spawn 5, .close, .setDone, .spawn 6] : Option (NurseryTrace Nat Nat × Nursery Nat Nat)).map
      (fun x => (x.2.inputLen, x.2.shutdownAnswer, (observed x.1).getLast?)) = some (1, false, some (.refused 6)) := by decide +kernel
  rw [Option.map_eq_some_iff] at h
  obtain ⟨x, hx, h⟩ := h
  simp only [Prod.mk.injEq] at h
  exact ⟨x, hx, execNursery_run _ hx, h.1, h.2.1, h.2.2⟩

end Props
end Demag
