import Verif.Lemmas.Nursery

/-!
# C29, C30: worker nurseries
-/

namespace Demag.Props

open Demag Spec

variable {J R : Type}

theorem nurseryRun_snoc {N : Nat} {tr : NurseryTrace J R} {e : NurseryEvent J R} {out : List (NurseryOutput J R)}
    {s' : Nursery J R} (h : NurseryRun N (tr ++ [(e, out)]) s') : ∃ s, NurseryRun N tr s ∧ s.step e = some (s', out) := by
  generalize hz : tr ++ [(e, out)] = z at h
  cases h with
  | init => simp at hz
  | step hr hs =>
    obtain ⟨h1, h2⟩ := List.append_inj' hz rfl
    simp only [List.cons.injEq, Prod.mk.injEq, and_true] at h2
    obtain ⟨rfl, rfl⟩ := h2
    subst h1
    exact ⟨_, hr, hs⟩

theorem nurseryRun_prefix {N : Nat} {tr tr' : NurseryTrace J R} {s' : Nursery J R} (h : NurseryRun N (tr ++ tr') s') :
    ∃ s, NurseryRun N tr s := by
  generalize hz : tr ++ tr' = z at h
  induction h generalizing tr' with
  | init =>
    simp only [List.append_eq_nil_iff] at hz
    rw [hz.1]; exact ⟨_, .init⟩
  | @step tr2 s s' e out hr hs ih =>
    rcases List.eq_nil_or_concat tr' with rfl | ⟨t, x, rfl⟩
    · rw [List.append_nil] at hz
      subst hz
      exact ⟨_, .step hr hs⟩
    · rw [List.concat_eq_append, ← List.append_assoc] at hz
      exact ih (List.append_inj' hz rfl).1

/-- Everything that happens to a job happens once, in the order accepted, taken, begun, ended. -/
theorem nursery_once {N : Nat} {tr : NurseryTrace J R} {s : Nursery J R} (h : NurseryRun N tr s) :
    (tookJobs tr).Nodup ∧ (beganJobs tr ++ discardedJobs tr).Nodup ∧
    ((finishedJobs tr).map Prod.fst ++ goneJobs tr).Nodup := by
  have hi := nursery_inv h
  have h1 : (tookJobs tr).Nodup := by
    have := List.nodup_range (n := s.next)
    rw [← hi.queue] at this
    exact (List.nodup_append.1 this).1
  have h2 := hi.took.nodup_iff.1 h1
  have h2' := (List.nodup_append.1 h2).1
  have h3 := hi.began.nodup_iff.1 (List.nodup_append.1 h2').1
  exact ⟨h1, h2', (List.nodup_append.1 h3).1⟩

/-- **C29.** In every schedule at most as many jobs are running at the same time as the nursery has workers. -/
theorem nursery_concurrency {N : Nat} {tr : NurseryTrace J R} {s : Nursery J R} (h : NurseryRun N tr s) :
    (runningJobs tr).length ≤ N := by
  have hi := nursery_inv h
  have hon := nursery_once h
  have hnb : (beganJobs tr).Nodup := (List.nodup_append.1 hon.2.1).1
  have hall := hi.began.nodup_iff.1 hnb
  have hperm : (runningJobs tr).Perm (s.workers.filterMap Worker.runningNum) := by
    unfold runningJobs
    refine (hi.began.filter _).trans ?_
    rw [List.filter_append]
    have e1 : ((finishedJobs tr).map Prod.fst ++ goneJobs tr).filter
        (fun n => decide (n ∉ (finishedJobs tr).map Prod.fst ∧ n ∉ goneJobs tr)) = [] := by
      rw [List.filter_eq_nil_iff]
      intro n hn
      simp only [decide_eq_true_eq, not_and]
      rw [List.mem_append] at hn
      intro h1 h2
      rcases hn with hn | hn
      · exact h1 hn
      · exact h2 hn
    have e2 : (s.workers.filterMap Worker.runningNum).filter
        (fun n => decide (n ∉ (finishedJobs tr).map Prod.fst ∧ n ∉ goneJobs tr)) =
        s.workers.filterMap Worker.runningNum := by
      rw [List.filter_eq_self]
      intro n hn
      have hd := (List.nodup_append.1 hall).2.2
      simp only [decide_eq_true_eq]
      constructor
      · intro hm; exact hd n (by rw [List.mem_append]; exact .inl hm) n hn rfl
      · intro hm; exact hd n (by rw [List.mem_append]; exact .inr hm) n hn rfl
    rw [e1, e2]
    exact List.Perm.refl _
  rw [hperm.length_eq]
  exact Nat.le_trans (List.length_filterMap_le _ _) (Nat.le_of_eq hi.workers)

/-- **C29.** Jobs are given to workers in the order in which they were spawned: those given to a worker are the first ones that
were accepted, in that order; so no job begins before all jobs spawned earlier have been given to a worker. -/
theorem nursery_fifo {N : Nat} {tr : NurseryTrace J R} {s : Nursery J R} (h : NurseryRun N tr s) :
    tookJobs tr <+: (acceptedJobs tr).map Prod.fst ∧ (acceptedJobs tr).map Prod.fst = List.range (acceptedJobs tr).length ∧
    ∀ n ∈ beganJobs tr, ∀ m, m ≤ n → m ∈ tookJobs tr := by
  have hi := nursery_inv h
  have hlen : (acceptedJobs tr).length = s.next := by
    have := congrArg List.length hi.accepted
    simpa using this
  refine ⟨⟨s.queue.map Prod.fst, by rw [hi.queue, hi.accepted]⟩, by rw [hi.accepted, hlen], ?_⟩
  intro n hn m hm
  have htook : n ∈ tookJobs tr := hi.took.mem_iff.2 (by simp [hn])
  have hpre : tookJobs tr <+: List.range s.next := ⟨_, hi.queue⟩
  have hpre' := List.prefix_iff_eq_take.1 hpre
  have hn' : n < (tookJobs tr).length := by
    rw [hpre', List.mem_take_iff_getElem] at htook
    obtain ⟨i, hi1, hi2⟩ := htook
    simp only [List.getElem_range] at hi2
    subst hi2
    have := hi1
    have hle : (tookJobs tr).length ≤ (List.range s.next).length := hpre.length_le
    omega
  rw [hpre', List.mem_take_iff_getElem]
  have hle : (tookJobs tr).length ≤ (List.range s.next).length := hpre.length_le
  exact ⟨m, by omega, by simp⟩

/-- **C30.** In every schedule: every job begins at most once and only if it was accepted; a job that was discarded never
begins; no outcome is delivered twice; every outcome delivered is that of a job that was run to its end, and outcomes are
delivered in the order in which the jobs ended. -/
theorem nursery_at_most_once {N : Nat} {tr : NurseryTrace J R} {s : Nursery J R} (h : NurseryRun N tr s) :
    (beganJobs tr).Nodup ∧ (∀ n ∈ beganJobs tr, n ∈ (acceptedJobs tr).map Prod.fst) ∧
    (∀ n ∈ discardedJobs tr, n ∉ beganJobs tr) ∧ ((deliveredJobs tr).map Prod.fst).Nodup ∧
    deliveredJobs tr <+: finishedJobs tr ∧ (∀ x ∈ finishedJobs tr, x.1 ∈ beganJobs tr) := by
  have hi := nursery_inv h
  obtain ⟨h1, h2, h3⟩ := nursery_once h
  have hdf : deliveredJobs tr <+: finishedJobs tr := ⟨_, hi.finished.symm⟩
  refine ⟨(List.nodup_append.1 h2).1, ?_, ?_, ?_, hdf, ?_⟩
  · intro n hn
    have htook : n ∈ tookJobs tr := hi.took.mem_iff.2 (by simp [hn])
    rw [hi.accepted, ← hi.queue]
    simp [htook]
  · intro n hn hb
    exact (List.nodup_append.1 h2).2.2 n hb n hn rfl
  · have := (List.nodup_append.1 h3).1
    rw [hi.finished, List.map_append] at this
    exact (List.nodup_append.1 this).1
  · intro x hx
    exact hi.began.mem_iff.2 (by simp only [List.mem_append, List.mem_map]; exact .inl (.inl ⟨x, hx, rfl⟩))

/-- **C30.** The stream of outcomes ends only after the nursery has been closed, and if it was not shut down, only when the
outcome of every job accepted has been delivered, each exactly once. -/
theorem nursery_end {N : Nat} {tr : NurseryTrace J R} {s : Nursery J R} {out : List (NurseryOutput J R)} (hN : 0 < N)
    (h : NurseryRun N (tr ++ [(.recvNone, out)]) s) :
    ClosedBy tr ∧ (¬ ShutDown tr → ((deliveredJobs tr).map Prod.fst).Perm ((acceptedJobs tr).map Prod.fst)) := by
  obtain ⟨s0, hr, hs⟩ := nurseryRun_snoc h
  have hi := nursery_inv hr
  simp only [Nursery.step] at hs
  split at hs
  case isFalse => cases hs
  rename_i hc
  simp only [Bool.and_eq_true, List.isEmpty_iff, List.all_eq_true] at hc
  obtain ⟨⟨ha, ho⟩, hw⟩ := hc
  have hw' : ∀ w ∈ s0.workers, w = .stopped := by
    intro w hm
    have := hw w hm
    cases w <;> simp_all
  have hstop : Worker.stopped ∈ s0.workers := by
    cases hws : s0.workers with
    | nil =>
      have := hi.workers
      rw [hws] at this
      simp only [List.length_nil] at this
      omega
    | cons a l => rw [← hw' a (by rw [hws]; simp)]; simp
  have hclosed : s0.closed = true := by
    cases hcl : s0.closed with
    | true => rfl
    | false => exact absurd hstop (hi.stopped hcl)
  constructor
  · rcases hi.closed.1 hclosed with h | h
    · exact .inl h
    · right
      have := hi.handles
      omega
  · intro hsd
    have hd : s0.done = false := by
      cases hd : s0.done with
      | false => rfl
      | true => exact absurd (hi.done.1 hd) hsd
    have hq := hi.stoppedQueue hd ha hstop
    have hnone : ∀ f : Worker J → Option Nat, f .stopped = none → s0.workers.filterMap f = [] := by
      intro f hf
      rw [List.filterMap_eq_nil_iff]
      intro w hm
      rw [hw' w hm, hf]
    have h1 := hi.took
    have h2 := hi.began
    rw [hnone _ rfl, hi.discarded ha hd, List.append_nil, List.append_nil] at h1
    rw [hnone _ rfl, hi.alive ha, List.append_nil, List.append_nil] at h2
    have h3 := hi.queue
    rw [hq, List.map_nil, List.append_nil] at h3
    have h4 := hi.finished
    rw [ho, List.append_nil] at h4
    rw [hi.accepted, ← h3, ← h4]
    exact (h1.trans h2).symm

/-- **C30.** Once the nursery has been shut down no job begins any more. -/
theorem nursery_shutdown {N : Nat} {tr tr' : NurseryTrace J R} {s : Nursery J R} (h : NurseryRun N (tr ++ tr') s)
    (hd : ShutDown tr) : beganJobs (tr ++ tr') = beganJobs tr := by
  generalize hz : tr ++ tr' = z at h
  induction h generalizing tr' with
  | init =>
    simp only [List.append_eq_nil_iff] at hz
    rw [hz.1]
  | @step tr2 s0 s' e out hr hs ih =>
    rcases List.eq_nil_or_concat tr' with rfl | ⟨t, x, rfl⟩
    · rw [List.append_nil] at hz
      rw [hz]
    · rw [List.concat_eq_append, ← List.append_assoc] at hz
      obtain ⟨hz, -⟩ := List.append_inj' hz rfl
      have hdone : s0.done = true := by
        rw [(nursery_inv hr).done, ← hz]
        obtain ⟨o, ho⟩ := hd
        exact ⟨o, by simp [ho]⟩
      have hout : out.filterMap beganOf = [] := by
        cases e with
        | spawn j =>
          simp only [Nursery.step] at hs
          split at hs
          · cases hs
          · split at hs <;> (cases hs; rfl)
        | clone => simp only [Nursery.step] at hs; split at hs; · cases hs
                   · cases hs; rfl
        | dropHandle => simp only [Nursery.step] at hs; split at hs; · cases hs
                        · cases hs; rfl
        | close => simp only [Nursery.step] at hs; split at hs; · cases hs
                   · cases hs; rfl
        | setDone =>
          simp only [Nursery.step] at hs
          split at hs
          · cases hs; rfl
          · cases hs
        | take w =>
          simp only [Nursery.step] at hs
          split at hs
          · cases hs; rfl
          · cases hs
        | check w =>
          simp only [Nursery.step, hdone, if_true] at hs
          split at hs
          · cases hs; rfl
          · cases hs
        | finish w o =>
          simp only [Nursery.step] at hs
          split at hs
          · split at hs <;> (cases hs; rfl)
          · cases hs
        | exit w =>
          simp only [Nursery.step] at hs
          split at hs
          · split at hs
            · cases hs; rfl
            · cases hs
          · cases hs
        | recv =>
          simp only [Nursery.step] at hs
          split at hs
          · split at hs
            · cases hs; rfl
            · cases hs
          · cases hs
        | recvNone =>
          simp only [Nursery.step] at hs
          split at hs
          · cases hs; rfl
          · cases hs
        | dropStream =>
          simp only [Nursery.step] at hs
          split at hs
          · cases hs; rfl
          · cases hs
        | abort w =>
          simp only [Nursery.step] at hs
          split at hs
          · cases hs
          · split at hs <;> first | (cases hs; rfl) | cases hs
      rw [beganJobs_snoc, hout, List.append_nil]
      exact ih hz

/-! ### Progress -/

/-- The events by which a nursery makes progress on its own, given that jobs end and that the stream is polled. -/
def Internal : NurseryEvent J R → Prop
  | .take _ => True
  | .check _ => True
  | .finish _ _ => True
  | .exit _ => True
  | .recv => True
  | _ => False

def workerWeight : Worker J → Nat
  | .waiting => 1
  | .received _ _ => 4
  | .running _ _ => 3
  | .stopped => 0

/-- Bounds the number of internal events still possible. -/
def weight (s : Nursery J R) : Nat := 4 * s.queue.length + (s.workers.map workerWeight).sum + s.outputs.length

theorem sum_set {ws : List (Worker J)} {w : Nat} {a : Worker J} (b : Worker J) (h : ws[w]? = some a) :
    ((ws.set w b).map workerWeight).sum + workerWeight a = (ws.map workerWeight).sum + workerWeight b := by
  induction ws generalizing w with
  | nil => simp at h
  | cons x ws ih =>
    cases w with
    | zero =>
      simp only [List.getElem?_cons_zero, Option.some.injEq] at h
      subst h
      simp only [List.set_cons_zero, List.map_cons, List.sum_cons]
      omega
    | succ w =>
      simp only [List.getElem?_cons_succ] at h
      have := ih h
      simp only [List.set_cons_succ, List.map_cons, List.sum_cons]
      omega

/-- **C30.** Progress on its own comes to an end: each such event uses up some of a finite budget. -/
theorem nursery_terminates (s s' : Nursery J R) (e : NurseryEvent J R) (out : List (NurseryOutput J R)) (he : Internal e)
    (hs : s.step e = some (s', out)) : weight s' < weight s := by
  cases e with
  | take w =>
    simp only [Nursery.step] at hs
    split at hs
    · rename_i n j q h1 h2
      cases hs
      have := sum_set (.received n j) h1
      simp only [weight, h2, workerWeight, List.length_cons] at this ⊢
      omega
    · cases hs
  | check w =>
    simp only [Nursery.step] at hs
    split at hs
    · rename_i n j h1
      split at hs
      · cases hs
        have := sum_set .stopped h1
        simp only [weight, workerWeight] at this ⊢
        omega
      · cases hs
        have := sum_set (.running n j) h1
        simp only [weight, workerWeight] at this ⊢
        omega
    · cases hs
  | finish w o =>
    simp only [Nursery.step] at hs
    split at hs
    · rename_i n j h1
      split at hs
      · cases hs
        have := sum_set .waiting h1
        simp only [weight, workerWeight, List.length_append, List.length_singleton] at this ⊢
        omega
      · cases hs
        have := sum_set .stopped h1
        simp only [weight, workerWeight] at this ⊢
        omega
    · cases hs
  | exit w =>
    simp only [Nursery.step] at hs
    split at hs
    · rename_i h1 h2
      split at hs
      · cases hs
        have := sum_set .stopped h1
        simp only [weight, workerWeight] at this ⊢
        omega
      · cases hs
    · cases hs
  | recv =>
    simp only [Nursery.step] at hs
    split at hs
    · split at hs
      · rename_i n o r ho
        cases hs
        simp only [weight, ho, List.length_cons]
        omega
      · cases hs
    · cases hs
  | _ => cases he

/-- **C30.** And it stops only when everything has been done: if none of these events is possible in a nursery that was neither
shut down nor abandoned, then every job accepted has been run and its outcome delivered; and if the nursery has been closed, the
stream ends. -/
theorem nursery_progress {N : Nat} {tr : NurseryTrace J R} {s : Nursery J R} (h : NurseryRun N tr s) (hN : 0 < N)
    (hd : ¬ ShutDown tr) (hst : ¬ StreamDropped tr) (hstuck : ∀ e, Internal e → s.step e = none) :
    ((deliveredJobs tr).map Prod.fst).Perm ((acceptedJobs tr).map Prod.fst) ∧
      (ClosedBy tr → s.step .recvNone = some (s, [.ended])) := by
  have hi := nursery_inv h
  have hdone : s.done = false := by
    cases hd' : s.done with
    | false => rfl
    | true => exact absurd (hi.done.1 hd') hd
  have ha : s.alive = true := by
    cases ha' : s.alive with
    | true => rfl
    | false => exact absurd (hi.dropped.1 ha') hst
  have hrecv := hstuck .recv trivial
  have ho : s.outputs = [] := by
    simp only [Nursery.step, ha, if_true] at hrecv
    split at hrecv
    · cases hrecv
    · assumption
  have hw : ∀ (w : Nat) (x : Worker J), s.workers[w]? = some x → x = .waiting ∨ x = .stopped := by
    intro w x hx
    cases x with
    | waiting => exact .inl rfl
    | stopped => exact .inr rfl
    | received n j =>
      have := hstuck (.check w) trivial
      simp [Nursery.step, hx, hdone] at this
    | running n j =>
      have := hstuck (.finish w .panic) trivial
      simp [Nursery.step, hx, ha] at this
  have hwm : ∀ x ∈ s.workers, x = .waiting ∨ x = .stopped := by
    intro x hx
    obtain ⟨i, hi1⟩ := List.mem_iff_getElem?.1 hx
    exact hw i x hi1
  have hq : s.queue = [] := by
    have h0 : ∃ x, s.workers[0]? = some x := by
      have := hi.workers
      exact ⟨s.workers[0], by rw [List.getElem?_eq_getElem]⟩
    obtain ⟨x, hx⟩ := h0
    rcases hw 0 x hx with rfl | rfl
    · cases hq : s.queue with
      | nil => rfl
      | cons a q =>
        have := hstuck (.take 0) trivial
        simp [Nursery.step, hx, hq] at this
    · exact hi.stoppedQueue hdone ha (List.mem_iff_getElem?.2 ⟨0, hx⟩)
  have hnone : ∀ f : Worker J → Option Nat, f .stopped = none → f .waiting = none → s.workers.filterMap f = [] := by
    intro f hf hf2
    rw [List.filterMap_eq_nil_iff]
    intro w hm
    rcases hwm w hm with rfl | rfl
    · exact hf2
    · exact hf
  constructor
  · have h1 := hi.took
    have h2 := hi.began
    rw [hnone _ rfl rfl, hi.discarded ha hdone, List.append_nil, List.append_nil] at h1
    rw [hnone _ rfl rfl, hi.alive ha, List.append_nil, List.append_nil] at h2
    have h3 := hi.queue
    rw [hq, List.map_nil, List.append_nil] at h3
    have h4 := hi.finished
    rw [ho, List.append_nil] at h4
    rw [hi.accepted, ← h3, ← h4]
    exact (h1.trans h2).symm
  · intro hcl
    have hclosed : s.closed = true := by
      rw [hi.closed]
      rcases hcl with h | h
      · exact .inl h
      · right
        have := hi.handles
        omega
    have hall : ∀ x ∈ s.workers, x = .stopped := by
      intro x hx
      obtain ⟨i, hi1⟩ := List.mem_iff_getElem?.1 hx
      rcases hw i x hi1 with rfl | rfl
      · have := hstuck (.exit i) trivial
        simp [Nursery.step, hi1, hq, hclosed] at this
      · rfl
    simp only [Nursery.step, ha, ho, List.isEmpty_nil, Bool.and_true, Bool.true_and]
    rw [if_pos]
    rw [List.all_eq_true]
    intro x hx
    rw [hall x hx]

-- a run with one worker and two jobs, the second spawned while the first is running; everything is delivered and the stream
-- ends
def exampleTrace : NurseryTrace Nat Nat := [(.spawn 7, [.accepted 0 7]), (.take 0, [.took 0]), (.check 0, [.began 0]),
  (.spawn 8, [.accepted 1 8]), (.finish 0 (.value 10), [.finished 0 (.value 10)]), (.dropHandle, []), (.take 0, [.took 1]),
  (.recv, [.delivered 0 (.value 10)]), (.check 0, [.began 1]), (.finish 0 .panic, [.finished 1 .panic]),
  (.recv, [.delivered 1 .panic]), (.exit 0, [])]

example : (∃ s, NurseryRun 1 (exampleTrace ++ [(.recvNone, [.ended])]) s) ∧ ¬ ShutDown exampleTrace ∧
    ¬ StreamDropped exampleTrace ∧ deliveredJobs exampleTrace = [(0, .value 10), (1, .panic)] ∧
    acceptedJobs exampleTrace = [(0, 7), (1, 8)] ∧ runningJobs (exampleTrace.take 3) = [0] := by
  refine ⟨⟨_, .step (.step (.step (.step (.step (.step (.step (.step (.step (.step (.step (.step (.step .init rfl) rfl) rfl)
    rfl) rfl) rfl) rfl) rfl) rfl) rfl) rfl) rfl) rfl⟩, ?_, ?_, rfl, rfl, rfl⟩
  · rintro ⟨o, ho⟩
    simp [exampleTrace] at ho
  · rintro ⟨o, ho⟩
    simp [exampleTrace] at ho

-- a run in which the nursery is shut down with one job running and one in the queue: the second is discarded
example : ∃ (s : Nursery Nat Nat), NurseryRun 1 ([(.spawn 7, [.accepted 0 7]), (.spawn 8, [.accepted 1 8]), (.take 0, [.took 0]),
    (.check 0, [.began 0]), (.close, []), (.setDone, [])] ++ [(.finish 0 (.value 1), [.finished 0 (.value 1)]), (.take 0, [.took 1]),
    (.check 0, [.discarded 1]), (.recv, [.delivered 0 (.value 1)]), (.recvNone, [.ended])]) s := by
  exact ⟨_, .step (.step (.step (.step (.step (.step (.step (.step (.step (.step (.step .init rfl) rfl) rfl)
    rfl) rfl) rfl) rfl) rfl) rfl) rfl) rfl⟩

end Demag.Props
